import Verif.Proofs.Reports
import Verif.Props.ParseErrors
/-! # What is reported about errors -/

namespace Seiren
open Spec

/-! ## The errors of the tokenizer -/

/-- **C69** What the tokenizer reports, for every source: at each place where characters are skipped, one report about the token that
was tried at the first of them, located where that token goes wrong; one about every escape of a surrogate in a token that is
read; nothing about the characters behind the last token. -/
theorem C69_tokenizer_reports (src : Str) : Reported 0 src (lexReports src) := by
  have := loopReports_spec src.length 0 src (le_refl _)
  rwa [Nat.zero_add] at this

/-- Reading stops where no piece can be read. -/
theorem lexQuotedBody_stuck {s w : Str} {e : Nat} (h : Pieces s w e) {r : Str} (hr : lexQuotedChar r = none) (fuel : Nat) (hf : w.length ≤ fuel) :
    (lexQuotedBody fuel (w ++ r)).2.2 = r := by
  induction h generalizing fuel with
  | nil =>
    cases fuel with
    | zero => rfl
    | succ fuel => rw [List.nil_append, lexQuotedBody, hr]
  | cons hp h ih =>
    rename_i c w e s v n
    have := List.length_pos_iff.mpr (piece_ne hp)
    rw [List.length_append] at hf
    cases fuel with
    | zero => omega
    | succ fuel =>
      rw [lexQuotedBody, List.append_assoc, lexQuotedChar_complete hp]
      exact ih fuel (by omega)

/-- A lexeme that begins with a back quote is not stuck inside. -/
theorem not_begins_stuck {s w r : Str} {e : Nat} (h : Pieces s w e) (hr : ∀ v, lexQuotedChar (r ++ v) = none) (hne : r.head? ≠ some '`')
    (hn : r ≠ []) : ¬ Begins ('`' :: (w ++ r)) := by
  rintro ⟨v, t, n, hl⟩
  have hw : ¬ IsWord ('`' :: (w ++ r) ++ v) := quoted_not_word
  generalize hx : '`' :: (w ++ r) ++ v = x at hl hw
  cases hl with
  | edge => simp at hx
  | keyword h => exact hw (keyword_isWord h)
  | word h => exact hw h
  | ctrl h =>
    simp only [List.cons_append, List.cons.injEq] at hx
    rw [← hx.1] at h; simp at h
  | newline => simp at hx
  | crlf => simp at hx
  | quoted hq =>
    rename_i s' w'
    simp only [List.cons_append, List.cons.injEq, true_and, List.append_assoc] at hx
    have h1 := lexQuotedBody_stuck h (hr v) (w ++ (r ++ v)).length (by simp)
    have h2 := lexQuotedBody_complete hq [] (w ++ (r ++ v)).length (by rw [hx]; simp)
    rw [hx] at h1
    rw [hx, ← List.append_nil ['`'], List.cons_append, List.nil_append] at h2
    rw [h2] at h1
    cases r with
    | nil => exact hn rfl
    | cons c r =>
      simp only [List.cons_append, List.cons.injEq] at h1
      exact hne (by rw [← h1.1]; rfl)

theorem begins_pieces {s w : Str} {e : Nat} (h : Pieces s w e) : Begins ('`' :: w) := ⟨['`'], _, _, .quoted h⟩

theorem pieces_append {s w s' w' : Str} {e e' : Nat} (h : Pieces s w e) (h' : Pieces s' w' e') : Pieces (s ++ s') (w ++ w') (e + e') := by
  induction h with
  | nil => simpa using h'
  | cons hp _ ih => rw [List.append_assoc, Nat.add_assoc]; exact .cons hp ih

/-- Four digits behind `\u` are a piece. -/
theorem piece_digits {a b c d : Char} {i j k l : Nat} (ha : HexDigit a i) (hb : HexDigit b j) (hc : HexDigit c k) (hd : HexDigit d l) :
    ∃ x e, Piece x ['\\', 'u', a, b, c, d] e := by
  by_cases hs : 0xD800 ≤ 4096 * i + 256 * j + 16 * k + l ∧ 4096 * i + 256 * j + 16 * k + l ≤ 0xDFFF
  · exact ⟨_, _, .surrogate a b c d i j k l ha hb hc hd hs⟩
  · exact ⟨_, _, .unicode a b c d i j k l ha hb hc hd hs⟩

theorem begins_digits {s w ds : Str} {e : Nat} (h : Pieces s w e) (hd : ∀ d ∈ ds, ∃ v, HexDigit d v) (hn : ds.length ≤ 4) :
    Begins ('`' :: (w ++ ('\\' :: 'u' :: ds))) := by
  have h0 : HexDigit '0' 0 := .inl rfl
  have key : ∃ x e', Piece x ('\\' :: 'u' :: (ds ++ List.replicate (4 - ds.length) '0')) e' := by
    match ds, hn, hd with
    | [], _, _ => exact piece_digits h0 h0 h0 h0
    | [a], _, hd =>
      obtain ⟨i, ha⟩ := hd a (by simp)
      exact piece_digits ha h0 h0 h0
    | [a, b], _, hd =>
      obtain ⟨i, ha⟩ := hd a (by simp)
      obtain ⟨j, hb⟩ := hd b (by simp)
      exact piece_digits ha hb h0 h0
    | [a, b, c], _, hd =>
      obtain ⟨i, ha⟩ := hd a (by simp)
      obtain ⟨j, hb⟩ := hd b (by simp)
      obtain ⟨k, hc⟩ := hd c (by simp)
      exact piece_digits ha hb hc h0
    | [a, b, c, d], _, hd =>
      obtain ⟨i, ha⟩ := hd a (by simp)
      obtain ⟨j, hb⟩ := hd b (by simp)
      obtain ⟨k, hc⟩ := hd c (by simp)
      obtain ⟨l, hd⟩ := hd d (by simp)
      exact piece_digits ha hb hc hd
    | _ :: _ :: _ :: _ :: _ :: _, hn, _ => simp at hn
  obtain ⟨x, e', hp⟩ := key
  refine ⟨List.replicate (4 - ds.length) '0' ++ ['`'], .ident (s ++ [x]), e + (e' + 0), ?_⟩
  have := Lexeme.quoted (pieces_append h (.cons hp .nil))
  simpa using this

theorem begins_escape {s w : Str} {e : Nat} (h : Pieces s w e) {c : Char} (hc : EscapeChar c) : Begins ('`' :: (w ++ ['\\', c])) := by
  rcases hc with rfl | ⟨d, hd⟩
  · exact begins_digits (ds := []) h (by simp) (by simp)
  · have := begins_pieces (pieces_append h (.cons (.escape c d hd) .nil))
    simpa using this

theorem Begins.of_append {w v : Str} (h : Begins (w ++ v)) : Begins w := by
  obtain ⟨x, t, e, hl⟩ := h
  exact ⟨v ++ x, t, e, by simpa using hl⟩

/-- The first character of a lexeme. -/
theorem begins_one (c : Char) : Begins [c] ↔ WordStart c ∨ c ∈ c!"`{};.\n\r" := by
  constructor
  · rintro ⟨v, t, e, hl⟩
    have word : IsWord ([c] ++ v) → WordStart c := by
      rintro ⟨c', cs, hx, hc, -⟩
      simp only [List.cons_append, List.nil_append, List.cons.injEq] at hx
      exact hx.1 ▸ hc
    generalize hx : [c] ++ v = x at hl word
    cases hl with
    | edge =>
      simp only [List.cons_append, List.nil_append, List.cons.injEq] at hx
      exact .inl (hx.1 ▸ .inl (by decide))
    | keyword h => exact .inl (word (keyword_isWord h))
    | word h => exact .inl (word h)
    | quoted h => simp only [List.cons_append, List.nil_append, List.cons.injEq] at hx; simp [hx.1]
    | ctrl h =>
      simp only [List.cons_append, List.nil_append, List.cons.injEq] at hx
      rw [hx.1]
      simp only [List.mem_cons, List.not_mem_nil, or_false] at h ⊢
      tauto
    | newline => simp only [List.cons_append, List.nil_append, List.cons.injEq] at hx; simp [hx.1]
    | crlf => simp only [List.cons_append, List.nil_append, List.cons.injEq] at hx; simp [hx.1]
  · rintro (h | h)
    · by_cases hk : ∃ t, ([c], t) ∈ keywords
      · obtain ⟨t, ht⟩ := hk
        exact ⟨[], t, 0, .keyword ht⟩
      · exact ⟨[], _, 0, .word ⟨c, [], rfl, h, by simp⟩ (fun t ht => hk ⟨t, ht⟩)⟩
    · simp only [List.mem_cons, List.not_mem_nil, or_false] at h
      rcases h with rfl | rfl | rfl | rfl | rfl | rfl | rfl
      · exact begins_pieces .nil
      · exact ⟨[], _, _, .ctrl (c := '{') (by decide)⟩
      · exact ⟨[], _, _, .ctrl (c := '}') (by decide)⟩
      · exact ⟨[], _, _, .ctrl (c := ';') (by decide)⟩
      · exact ⟨[], _, _, .ctrl (c := '.') (by decide)⟩
      · exact ⟨[], _, _, .newline⟩
      · exact ⟨c!"\n", _, _, .crlf⟩

theorem begins_cr (c : Char) : Begins ['\r', c] ↔ c = '\n' := by
  constructor
  · rintro ⟨v, t, e, hl⟩
    have hw : ¬ IsWord (['\r', c] ++ v) := not_word_of (by decide) _
    generalize hx : ['\r', c] ++ v = x at hl hw
    cases hl with
    | keyword h => exact absurd (keyword_isWord h) hw
    | word h => exact absurd h hw
    | crlf => simp only [List.cons_append, List.nil_append, List.cons.injEq] at hx; exact hx.2.1
    | _ => simp at hx
  · rintro rfl
    exact ⟨[], _, _, .crlf⟩

theorem escapeChar_iff (c : Char) : EscapeChar c ↔ c ∈ c!"\\/\"`bfnrtu" := by
  unfold EscapeChar
  constructor
  · rintro (rfl | ⟨d, hd⟩)
    · decide
    · simp only [escapes, List.mem_cons, Prod.mk.injEq, List.not_mem_nil, or_false] at hd
      rcases hd with h | h | h | h | h | h | h | h | h <;> rw [h.1] <;> decide
  · intro h
    simp only [List.mem_cons, List.not_mem_nil, or_false] at h
    rcases h with rfl | rfl | rfl | rfl | rfl | rfl | rfl | rfl | rfl | rfl
    · exact .inr ⟨'\\', by decide⟩
    · exact .inr ⟨'/', by decide⟩
    · exact .inr ⟨'"', by decide⟩
    · exact .inr ⟨'`', by decide⟩
    · exact .inr ⟨Char.ofNat 8, by decide⟩
    · exact .inr ⟨Char.ofNat 12, by decide⟩
    · exact .inr ⟨'\n', by decide⟩
    · exact .inr ⟨'\r', by decide⟩
    · exact .inr ⟨'\t', by decide⟩
    · exact .inl rfl

theorem lexEscape_bad {c : Char} (h : ¬ EscapeChar c) (v : Str) : lexEscape (c :: v) = none := by
  rw [escapeChar_iff] at h
  simp only [List.mem_cons, List.not_mem_nil, or_false, not_or] at h
  obtain ⟨h1, h2, h3, h4, h5, h6, h7, h8, h9, h10⟩ := h
  unfold lexEscape
  split <;> simp_all

theorem lexEscape_digits {ds : Str} (hn : ds.length < 4) {c : Char} (hc : ∀ v, ¬ HexDigit c v) (v : Str) :
    lexEscape ('u' :: (ds ++ c :: v)) = none := by
  have hx : hexVal c = none := by
    cases h : hexVal c with
    | none => rfl
    | some n => exact absurd ((hexVal_iff c n).mp h) (hc n)
  match ds, hn with
  | [], _ =>
    match v with
    | [] | [_] | [_, _] => rfl
    | x :: y :: z :: v => simp only [List.nil_append, lexEscape, hx]
  | [a], _ =>
    match v with
    | [] | [_] => rfl
    | x :: y :: v => cases ha : hexVal a <;> simp [lexEscape, hx, ha]
  | [a, b], _ =>
    match v with
    | [] => rfl
    | x :: v => cases ha : hexVal a <;> cases hb : hexVal b <;> simp [lexEscape, hx, ha, hb]
  | [a, b, d], _ => cases ha : hexVal a <;> cases hb : hexVal b <;> cases hd : hexVal d <;> simp [lexEscape, hx, ha, hb, hd]

/-- **C69** The place of a report is the earliest place at which it is certain that no token comes: up to there the characters are the
beginning of a lexeme, with the character found there (if any) they are not.  Every character listed as expected would continue a
lexeme; of the characters that would, only letters and underscores at the beginning of a token, and characters inside back quotes other than
`` ` `` and `\`, are not listed. -/
theorem C69_place {cs ex : Str} {i : Nat} (h : Fails cs i ex) :
    i ≤ cs.length ∧ (i ≠ 0 → Begins (cs.take i)) ∧ (∀ c, cs[i]? = some c → ¬ Begins (cs.take i ++ [c])) ∧ (∀ c ∈ ex, Begins (cs.take i ++ [c])) ∧
    ∀ c, Begins (cs.take i ++ [c]) → c ∈ ex ∨ (i = 0 ∧ WordStart c) ∨ (cs.head? = some '`' ∧ i ≠ 0 ∧ c ∉ c!"`\\") := by
  cases h with
  | nothing h =>
    refine ⟨by simp, by simp, ?_, ?_, ?_⟩
    · intro c hc
      rw [List.take_zero, List.nil_append, begins_one]
      cases cs with
      | nil => simp at hc
      | cons d cs =>
        simp only [List.getElem?_cons_zero, Option.some.injEq] at hc
        subst hc
        have := h d (by simp)
        tauto
    · intro c hc
      rw [List.take_zero, List.nil_append, begins_one]
      simp only [List.mem_cons, List.not_mem_nil, or_false] at hc ⊢
      rcases hc with rfl | hc
      · exact .inl (.inl (by decide))
      · exact .inr hc
    · intro c hc
      rw [List.take_zero, List.nil_append, begins_one] at hc
      rcases hc with hc | hc
      · exact .inr (.inl ⟨rfl, hc⟩)
      · exact .inl (List.mem_cons_of_mem _ hc)
  | cr h =>
    rename_i r
    refine ⟨by simp, fun _ => (begins_one '\r').2 (.inr (by decide)), ?_, ?_, ?_⟩
    · intro c hc
      have h1 : ('\r' :: r).take 1 ++ [c] = ['\r', c] := rfl
      rw [h1, begins_cr]
      cases r with
      | nil => simp at hc
      | cons d r =>
        simp only [List.getElem?_cons_succ, List.getElem?_cons_zero, Option.some.injEq] at hc
        exact hc ▸ h d (by simp)
    · intro c hc
      have h1 : ('\r' :: r).take 1 ++ [c] = ['\r', c] := rfl
      rw [h1, begins_cr]
      simpa using hc
    · intro c hc
      have h1 : ('\r' :: r).take 1 ++ [c] = ['\r', c] := rfl
      rw [h1, begins_cr] at hc
      exact .inl (by simp [hc])
  | unclosed h =>
    rename_i s w e
    have h1 : ('`' :: w).take (1 + w.length) = '`' :: w := List.take_of_length_le (by rw [List.length_cons]; omega)
    rw [h1]
    refine ⟨by rw [List.length_cons]; omega, fun _ => begins_pieces h, ?_, ?_, ?_⟩
    · intro c hc
      rw [List.getElem?_eq_none (by rw [List.length_cons]; omega)] at hc
      cases hc
    · intro c hc
      simp only [List.mem_cons, List.not_mem_nil, or_false] at hc
      rcases hc with rfl | rfl
      · exact ⟨[], _, _, by simpa using Lexeme.quoted h⟩
      · have := begins_escape h (c := 'n') (.inr ⟨'\n', by decide⟩)
        refine Begins.of_append (v := ['n']) ?_
        simpa using this
    · intro c hc
      by_cases hc' : c ∈ c!"`\\"
      · exact .inl hc'
      · exact .inr (.inr ⟨rfl, by omega, hc'⟩)
  | escape h hr =>
    rename_i s w r e
    have h1 : ('`' :: (w ++ '\\' :: r)).take (2 + w.length) = '`' :: (w ++ ['\\']) := by
      have : '`' :: (w ++ '\\' :: r) = ('`' :: (w ++ ['\\'])) ++ r := by simp
      rw [this]
      exact List.take_left' (by simp; omega)
    have h2 : ∀ c, '`' :: (w ++ ['\\']) ++ [c] = '`' :: (w ++ ['\\', c]) := by simp
    have bad : ∀ c, ¬ EscapeChar c → ¬ Begins ('`' :: (w ++ ['\\', c])) := fun c hc =>
      not_begins_stuck h (fun v => by simpa [lexQuotedChar] using lexEscape_bad hc v) (by simp) (by simp)
    refine ⟨by simp; omega, fun _ => ?_, ?_, ?_, ?_⟩
    · rw [h1]
      have := begins_escape h (c := 'n') (.inr ⟨'\n', by decide⟩)
      refine Begins.of_append (v := ['n']) ?_
      simpa using this
    · intro c hc
      rw [h1, h2]
      refine bad c (hr c ?_)
      have e1 : ('`' :: (w ++ '\\' :: r))[2 + w.length]? = r[0]? := by
        have : '`' :: (w ++ '\\' :: r) = ('`' :: (w ++ ['\\'])) ++ r := by simp
        rw [this, List.getElem?_append_right (by simp; omega)]
        congr 1
        simp; omega
      rw [e1] at hc
      rw [List.head?_eq_getElem?]
      exact hc
    · intro c hc
      rw [h1, h2]
      exact begins_escape h ((escapeChar_iff c).2 hc)
    · intro c hc
      rw [h1, h2] at hc
      by_cases he : EscapeChar c
      · exact .inl ((escapeChar_iff c).1 he)
      · exact absurd hc (bad c he)
  | digits h hd hn hr =>
    rename_i s w ds r e
    have e0 : '`' :: (w ++ '\\' :: 'u' :: (ds ++ r)) = ('`' :: (w ++ '\\' :: 'u' :: ds)) ++ r := by simp
    have h1 : ('`' :: (w ++ '\\' :: 'u' :: (ds ++ r))).take (3 + w.length + ds.length) = '`' :: (w ++ '\\' :: 'u' :: ds) := by
      rw [e0]
      exact List.take_left' (by simp; omega)
    have h2 : ∀ c, '`' :: (w ++ '\\' :: 'u' :: ds) ++ [c] = '`' :: (w ++ '\\' :: 'u' :: (ds ++ [c])) := by simp
    have bad : ∀ c, (∀ v, ¬ HexDigit c v) → ¬ Begins ('`' :: (w ++ '\\' :: 'u' :: (ds ++ [c]))) := fun c hc =>
      not_begins_stuck h (fun v => by simpa [lexQuotedChar] using lexEscape_digits hn hc v) (by simp) (by simp)
    refine ⟨by simp; omega, fun _ => h1 ▸ begins_digits h hd (by omega), ?_, by simp, ?_⟩
    · intro c hc
      rw [h1, h2]
      refine bad c (hr c ?_)
      have e1 : ('`' :: (w ++ '\\' :: 'u' :: (ds ++ r)))[3 + w.length + ds.length]? = r[0]? := by
        rw [e0, List.getElem?_append_right (by simp; omega)]
        congr 1
        simp; omega
      rw [e1] at hc
      rw [List.head?_eq_getElem?]
      exact hc
    · intro c hc
      refine .inr (.inr ⟨rfl, by omega, ?_⟩)
      intro hc'
      rw [h1, h2] at hc
      refine bad c ?_ hc
      intro v hv
      have := (hexVal_iff c v).mpr hv
      simp only [List.mem_cons, List.not_mem_nil, or_false] at hc'
      rcases hc' with rfl | rfl
      · have e : hexVal '`' = none := by decide
        rw [e] at this; cases this
      · have e : hexVal '\\' = none := by decide
        rw [e] at this; cases this

/-- In `erd { $a }` the characters `$` cannot begin a token; the report is about it. -/
example : lexReports c!"erd { $a }" = [.unexpected ⟨6, 7⟩ (some '$') c!"o`{};.\n\r"] := by decide +kernel

/-- A back quote that is not closed is reported at the end of the source, not where it stands, and the rest is read without it. -/
example : lexReports c!"erd { `a { id int } }" = [.unexpected ⟨21, 22⟩ none c!"`\\"] ∧
    (tokenize c!"erd { `a { id int } }").1 = some [(.erd, ⟨0, 3⟩), (.ctrl '{', ⟨4, 5⟩), (.ident c!"a", ⟨6, 8⟩), (.ctrl '{', ⟨9, 10⟩),
      (.ident c!"id", ⟨11, 13⟩), (.int, ⟨14, 17⟩), (.ctrl '}', ⟨18, 19⟩), (.ctrl '}', ⟨20, 21⟩)] := by decide +kernel

/-- Three hexadecimal digits: the report is about the character behind them and lists nothing.  The characters of the quoted name are
then tried one after the other, which gives a report about the backslash and one about the closing back quote. -/
example : lexReports c!"`a\\u12f` {" = [.unexpected ⟨7, 8⟩ (some '`') [], .unexpected ⟨2, 3⟩ (some '\\') c!"o`{};.\n\r",
    .unexpected ⟨10, 11⟩ none c!"`\\"] := by decide +kernel

/-- The escape of a surrogate is reported at its digits. -/
example : lexReports c!"`a\\ud800`" = [.custom ⟨4, 8⟩ c!"invalid unicode character"] := by decide +kernel

/-- Nothing is reported about characters behind the last token. -/
example : lexReports c!"erd {} $" = [] := by decide +kernel

theorem quotedReports_length (total fuel : Nat) (cs : Str) : (quotedReports total fuel cs).length = (lexQuotedBody fuel cs).2.1.length := by
  induction fuel generalizing cs with
  | zero => rfl
  | succ fuel ih =>
    rw [quotedReports, lexQuotedBody]
    cases lexQuotedChar cs with
    | none => rfl
    | some x => simp [ih]

theorem tokenReports_length {total : Nat} {cs r : Str} {t : Token} {errs : List LexError} (h : lexToken cs = some (t, errs, r)) :
    (tokenReports total cs).length = errs.length := by
  obtain ⟨w, e, rfl, hw, rfl⟩ := (lexToken_iff _ _ _ _).mp h
  clear h
  rw [List.length_replicate]
  have key : ∀ c v, w = c :: v → c ≠ '`' → (tokenReports total (w ++ r)).length = 0 := by
    rintro c v rfl hc
    rw [List.cons_append]
    unfold tokenReports
    split
    · rename_i heq; simp only [List.cons.injEq] at heq; exact absurd heq.1 hc
    · rfl
  have word : IsWord w → (tokenReports total (w ++ r)).length = 0 := by
    rintro ⟨c, cs, rfl, hc, -⟩
    exact key c cs rfl (by rintro rfl; exact not_wordStart_of (by decide) hc)
  cases hw.1 with
  | edge => exact key _ _ rfl (by simp)
  | keyword h => exact word (keyword_isWord h)
  | word h => exact word h
  | quoted h =>
    rename_i s w
    have e1 : '`' :: (w ++ ['`']) ++ r = '`' :: (w ++ '`' :: r) := by simp
    rw [e1, tokenReports, quotedReports_length, lexQuotedBody_complete h r _ (by simp), List.length_replicate]
  | ctrl h =>
    simp only [List.mem_cons, List.not_mem_nil, or_false] at h
    rcases h with rfl | rfl | rfl | rfl <;> exact key _ _ rfl (by simp)
  | newline => exact key _ _ rfl (by simp)
  | crlf => exact key _ _ rfl (by simp)

theorem loopReports_length (total fuel : Nat) (cs : Str) : (loopReports total fuel cs).length = (lexLoop total fuel cs).2.length := by
  induction fuel generalizing cs with
  | zero => rfl
  | succ fuel ih =>
    rw [loopReports, lexLoop]
    cases hs : lexStep total cs with
    | none => rfl
    | some x =>
      obtain ⟨t, errs, rest⟩ := x
      have : (stepReports total cs).length = errs.length := by
        unfold lexStep at hs
        unfold stepReports
        simp only at hs ⊢
        split at hs
        · rename_i t' errs' rest' h0
          simp only [Option.some.injEq, Prod.mk.injEq] at hs
          rw [h0, ← hs.2.1]
          exact tokenReports_length h0
        · rename_i h0
          split at hs
          · rename_i t' errs' rest' h1
            simp only [Option.some.injEq, Prod.mk.injEq] at hs
            obtain ⟨x, v, e2, hx, hv, hu⟩ := lexRecover_some h1 h0
            rw [h0, ← hs.2.1]
            simp only [List.length_cons]
            rw [e2, recoverAt_eq hx hv hu, tokenReports_length hv]
          · cases hs
      simp only [List.length_append, ih, this]

/-- **C69** There are as many reports as errors of the tokenizer. -/
theorem C69_count (src : Str) : (lexReports src).length = (tokenize src).2.length := loopReports_length _ _ _

/-! ## The text of the reports -/

/-- **C68** One report is printed for every error. -/
theorem C68_one_each (red : Str → Str) (q : Queue) (src : Str) (rs : List Report) (h : Reports red src rs) : rs.length = (runMain q src).reports := by
  obtain ⟨es, hp, h⟩ := h
  have hl : ∀ {es : List SimpleError} {rs : List Report}, List.Forall₂ (ReportOf red) es rs → es.length = rs.length := by
    intro es rs h
    induction h with
    | nil => rfl
    | cons _ _ ih => simp [ih]
  rw [← hl h, hp.length_eq]
  have h1 := C69_count src
  have h2 := (C62_one_report src).2
  simp only [errorsOf, List.length_append, List.length_map, h1, h2]
  unfold runMain parse
  rcases tokenize src with ⟨_ | tokens, errs⟩ <;> rfl

theorem display_names (t : Token) : Names t t.display := by
  cases t with
  | edge => exact .edge
  | ident s => exact .ident s
  | ctrl c => exact .ctrl c
  | newline => exact .newline
  | _ => exact .keyword (by decide)

theorem names_unique {t : Token} {s : Str} (h : Names t s) : s = t.display := by
  cases h with
  | keyword h =>
    simp only [keywords, List.mem_cons, Prod.mk.injEq, List.not_mem_nil, or_false] at h
    rcases h with ⟨rfl, rfl⟩ | ⟨rfl, rfl⟩ | ⟨rfl, rfl⟩ | ⟨rfl, rfl⟩ | ⟨rfl, rfl⟩ | ⟨rfl, rfl⟩ | ⟨rfl, rfl⟩ <;> rfl
  | _ => rfl

theorem joinComma_enumeration {l : List Str} (h : l ≠ []) : Enumeration l (joinComma l) := by
  induction l with
  | nil => exact absurd rfl h
  | cons s l ih =>
    cases l with
    | nil => exact .one s
    | cons s' l => exact .cons s (ih (by simp))

/-- **C68** The report about an error of the parser: it is located at the first token with which the source is no longer the beginning
of a module (or behind the end), it says so, and it lists the names of all tokens that could stand there, except identifiers, each once; at
least one is listed. -/
theorem C68_parser_text (red : Str → Str) (src : Str) (p : ParseReport) (hp : p ∈ (parseReports src).2) (r : Report) (hr : ReportOf red p.simple r) :
    ∃ tokens errs i listed m, tokenize src = (some tokens, errs) ∧ Viable ((tokens.take i).map Prod.fst) ∧
      Enumeration listed m ∧ listed.Nodup ∧
      (∀ s, s ∈ listed ↔ ∃ t, (∀ n, t ≠ .ident n) ∧ Viable ((tokens.take i).map Prod.fst ++ [t]) ∧ Names t s) ∧
      ((i = tokens.length ∧ r = ⟨src.length, c!"Unexpected end of input, expected " ++ m,
          [(⟨src.length, src.length + 1⟩, c!"Unexpected token " ++ red c!"end of file")]⟩) ∨
       (∃ t span s, tokens[i]? = some (t, span) ∧ ¬ Viable ((tokens.take (i + 1)).map Prod.fst) ∧ Names t s ∧
          r = ⟨span.start, c!"Unexpected token in input, expected " ++ m, [(span, c!"Unexpected token " ++ red s)]⟩)) := by
  obtain ⟨tokens, errs, i, h1, h2, h3, h4⟩ := C62_C63_error_report src p hp
  obtain ⟨listed, l1, l2, rfl⟩ := hr
  have hmem : ∀ s, s ∈ listed ↔ ∃ t, t ∈ p.expected ∧ Names t s := by
    intro s
    rw [l2]
    simp only [ParseReport.simple, SimpleError.expected, List.mem_map]
    exact ⟨fun ⟨t, h, e⟩ => ⟨t, h, e ▸ display_names t⟩, fun ⟨t, h, e⟩ => ⟨t, h, (names_unique e).symm⟩⟩
  have hne : listed ≠ [] := by
    obtain ⟨t, ht⟩ := List.exists_mem_of_ne_nil _ (C63_nonempty src p hp)
    exact List.ne_nil_of_mem ((hmem _).2 ⟨t, ht, display_names t⟩)
  have hlen : ¬ listed.length = 0 := by simpa using hne
  refine ⟨tokens, errs, i, listed, joinComma listed, h1, h2, joinComma_enumeration hne, l1, ?_, ?_⟩
  · intro s
    rw [hmem]
    exact ⟨fun ⟨t, h, e⟩ => ⟨t, ((h4 t).1 h).1, ((h4 t).1 h).2, e⟩, fun ⟨t, h, h', e⟩ => ⟨t, (h4 t).2 ⟨h, h'⟩, e⟩⟩
  · rcases h3 with ⟨hi, hf, hs⟩ | ⟨t, ht, hf, hv⟩
    · left
      refine ⟨hi, ?_⟩
      simp only [ParseReport.simple, SimpleError.report, hf, hs, Option.map_none, Option.isSome_none, if_neg hlen, Option.getD_none]
      rfl
    · right
      refine ⟨t, p.span, t.display, ht, hv, display_names t, ?_⟩
      simp only [ParseReport.simple, SimpleError.report, hf, Option.map_some, Option.isSome_some, if_neg hlen, Option.getD_some]
      rfl

/-- Members without commas can be read back from an enumeration. -/
theorem enumeration_unique {l l' : List Str} {m : Str} (h : Enumeration l m) (h' : Enumeration l' m) (hl : ∀ s ∈ l, ',' ∉ s) (hl' : ∀ s ∈ l', ',' ∉ s) :
    l = l' := by
  have split : ∀ (s s' a b : Str), ',' ∉ s → ',' ∉ s' → s ++ ',' :: a = s' ++ ',' :: b → s = s' ∧ a = b := by
    intro s
    induction s with
    | nil =>
      intro s' a b _ h2 h
      cases s' with
      | nil => simpa using h
      | cons c s' => simp only [List.nil_append, List.cons_append, List.cons.injEq] at h; exact absurd (by simp [← h.1]) h2
    | cons c s ih =>
      intro s' a b h1 h2 h
      cases s' with
      | nil => simp only [List.nil_append, List.cons_append, List.cons.injEq] at h; exact absurd (by simp [h.1]) h1
      | cons c' s' =>
        simp only [List.cons_append, List.cons.injEq] at h
        obtain ⟨h3, h4⟩ := ih s' a b (fun h' => h1 (List.mem_cons_of_mem _ h')) (fun h' => h2 (List.mem_cons_of_mem _ h')) h.2
        exact ⟨by rw [h.1, h3], h4⟩
  induction h generalizing l' with
  | one s =>
    cases h' with
    | one => rfl
    | cons s' h'' =>
      rename_i m'
      exact absurd (by simp) (hl (s' ++ (c!", " ++ m')) (by simp))
  | cons s h ih =>
    rename_i l m
    generalize hm : s ++ (c!", " ++ m) = x at h'
    cases h' with
    | one => exact absurd (by simp [← hm]) (hl' x (by simp))
    | cons s' h'' =>
      rename_i l'' m'
      obtain ⟨e1, e2⟩ := split s s' (' ' :: m) (' ' :: m') (hl s (by simp)) (hl' s' (by simp)) (by simpa using hm)
      simp only [List.cons.injEq, true_and] at e2
      subst e2
      rw [e1, ih h'' (fun s hs => hl s (by simp [hs])) (fun s hs => hl' s (by simp [hs]))]

theorem viable_alphabet {w : List Token} {t : Token} (h : Viable (w ++ [t])) : ∀ c, t = .ctrl c → c ∈ c!"{};." := by
  rintro c rfl
  obtain ⟨s, hs⟩ := (viable_run _).1 h
  rw [run_append] at hs
  cases hr : St.s0.run w with
  | none => simp [hr] at hs
  | some s' =>
    by_contra hc
    simp only [List.mem_cons, List.not_mem_nil, or_false, not_or] at hc
    simp [hr, St.run, St.step, hc] at hs

theorem names_no_comma {w : List Token} {t : Token} {s : Str} (hi : ∀ n, t ≠ .ident n) (h : Viable (w ++ [t])) (hs : Names t s) : ',' ∉ s := by
  rw [names_unique hs]
  cases t with
  | ident n => exact absurd rfl (hi n)
  | ctrl c =>
    have := viable_alphabet h c rfl
    simp only [List.mem_cons, List.not_mem_nil, or_false] at this
    rcases this with rfl | rfl | rfl | rfl <;> decide
  | _ => decide

/-- Names of tokens other than identifiers are distinct. -/
theorem display_injective {t t' : Token} (h : ∀ n, t ≠ .ident n) (h' : ∀ n, t' ≠ .ident n) (e : t.display = t'.display) : t = t' := by
  cases t with
  | ident n => exact absurd rfl (h n)
  | ctrl c =>
    cases t' with
    | ident n => exact absurd rfl (h' n)
    | ctrl c' => simp only [Token.display, List.cons.injEq] at e; rw [e.2.1]
    | _ => simp [Token.display] at e
  | _ =>
    cases t' with
    | ident n => exact absurd rfl (h' n)
    | ctrl c' => simp [Token.display] at e
    | _ => first | rfl | (simp [Token.display] at e)

/-- **C68** The message tells exactly which tokens could have come: if two sources get the same message, the same tokens (other than
identifiers) could stand at the places of the errors. -/
theorem C68_message_determines (red red' : Str → Str) (src src' : Str) (p p' : ParseReport) (hp : p ∈ (parseReports src).2) (hp' : p' ∈ (parseReports src').2)
    (r r' : Report) (hr : ReportOf red p.simple r) (hr' : ReportOf red' p'.simple r') (hm : r.message = r'.message) :
    (p.found = none ↔ p'.found = none) ∧ ∀ t, t ∈ p.expected ↔ t ∈ p'.expected := by
  obtain ⟨tokens, errs, i, h1, h2, h3, h4⟩ := C62_C63_error_report src p hp
  obtain ⟨tokens', errs', i', h1', h2', h3', h4'⟩ := C62_C63_error_report src' p' hp'
  obtain ⟨l, l1, l2, rfl⟩ := hr
  obtain ⟨l', l1', l2', rfl⟩ := hr'
  have hne : l ≠ [] := by
    obtain ⟨t, ht⟩ := List.exists_mem_of_ne_nil _ (C63_nonempty src p hp)
    exact List.ne_nil_of_mem ((l2 t.display).2 (List.mem_map_of_mem ht))
  have hne' : l' ≠ [] := by
    obtain ⟨t, ht⟩ := List.exists_mem_of_ne_nil _ (C63_nonempty src' p' hp')
    exact List.ne_nil_of_mem ((l2' t.display).2 (List.mem_map_of_mem ht))
  have hlen : ¬ l.length = 0 := by simpa using hne
  have hlen' : ¬ l'.length = 0 := by simpa using hne'
  have hc : ∀ s ∈ l, ',' ∉ s := by
    intro s hs
    obtain ⟨t, ht, rfl⟩ := List.mem_map.1 ((l2 s).1 hs)
    exact names_no_comma ((h4 t).1 ht).1 ((h4 t).1 ht).2 (display_names t)
  have hc' : ∀ s ∈ l', ',' ∉ s := by
    intro s hs
    obtain ⟨t, ht, rfl⟩ := List.mem_map.1 ((l2' s).1 hs)
    exact names_no_comma ((h4' t).1 ht).1 ((h4' t).1 ht).2 (display_names t)
  simp only [ParseReport.simple, SimpleError.report, if_neg hlen, if_neg hlen', Option.isSome_map] at hm
  have hfound : p.found.isSome = p'.found.isSome ∧ joinComma l = joinComma l' := by
    cases h : p.found.isSome <;> cases h' : p'.found.isSome <;> simp [h, h'] at hm ⊢ <;> exact hm
  have hll : l = l' := enumeration_unique (joinComma_enumeration hne) (hfound.2 ▸ joinComma_enumeration hne') hc hc'
  refine ⟨?_, ?_⟩
  · rw [← Option.isNone_iff_eq_none, ← Option.isNone_iff_eq_none, Option.isNone_iff_eq_none, Option.isNone_iff_eq_none]
    have := hfound.1
    cases h : p.found <;> cases h' : p'.found <;> simp_all
  · have sub : ∀ t, t.display ∈ l → (∀ n, t ≠ .ident n) → t ∈ p.expected := by
      intro t ht hi
      obtain ⟨t', ht', e⟩ := List.mem_map.1 ((l2 _).1 ht)
      exact display_injective ((h4 t').1 ht').1 hi e ▸ ht'
    have sub' : ∀ t, t.display ∈ l' → (∀ n, t ≠ .ident n) → t ∈ p'.expected := by
      intro t ht hi
      obtain ⟨t', ht', e⟩ := List.mem_map.1 ((l2' _).1 ht)
      exact display_injective ((h4' t').1 ht').1 hi e ▸ ht'
    intro t
    constructor
    · intro ht
      exact sub' t (hll ▸ (l2 _).2 (List.mem_map_of_mem ht)) ((h4 t).1 ht).1
    · intro ht
      exact sub t (hll ▸ (l2' _).2 (List.mem_map_of_mem ht)) ((h4' t).1 ht).1

/-- **C68** The report about an error of the tokenizer.  Nothing is listed only if hexadecimal digits are missing; the message then says
"something else". -/
theorem C68_tokenizer_text (red : Str → Str) (span : Span) (found : Option Char) (expected : List Char) (r : Report)
    (hr : ReportOf red (LexReport.unexpected span found expected).simple r) :
    ∃ m, (if expected = [] then m = c!"something else" else ∃ listed : List Char, listed.Nodup ∧ (∀ c, c ∈ listed ↔ c ∈ expected) ∧
        Enumeration (listed.map fun c => [c]) m) ∧
      r = match found with
        | some c => ⟨span.start, c!"Unexpected token in input, expected " ++ m, [(span, c!"Unexpected token " ++ red [c])]⟩
        | none => ⟨span.start, c!"Unexpected end of input, expected " ++ m, [(span, c!"Unexpected token " ++ red c!"end of file")]⟩ := by
  obtain ⟨l, l1, l2, rfl⟩ := hr
  simp only [LexReport.simple, SimpleError.expected, List.mem_map] at l2
  refine ⟨if l.length = 0 then c!"something else" else joinComma l, ?_, ?_⟩
  · by_cases he : expected = []
    · rw [if_pos he]
      have : l = [] := List.eq_nil_iff_forall_not_mem.2 fun s hs => by
        obtain ⟨c, hc, -⟩ := (l2 s).1 hs
        simp [he] at hc
      simp [this]
    · rw [if_neg he]
      obtain ⟨c, hc⟩ := List.exists_mem_of_ne_nil _ he
      have hne : l ≠ [] := List.ne_nil_of_mem ((l2 [c]).2 ⟨c, hc, rfl⟩)
      have hlen : ¬ l.length = 0 := by simpa using hne
      rw [if_neg hlen]
      have hl : (l.map fun s => s.headD ' ').map (fun c => [c]) = l := by
        rw [List.map_map]
        conv_rhs => rw [← List.map_id l]
        refine List.map_congr_left fun s hs => ?_
        obtain ⟨c, -, rfl⟩ := (l2 s).1 hs
        rfl
      refine ⟨l.map fun s => s.headD ' ', ?_, ?_, ?_⟩
      · refine List.Pairwise.of_map (S := (· ≠ ·)) (fun c => [c]) (fun a b h e => h (by rw [e])) ?_
        rw [hl]; exact l1
      · intro c
        rw [List.mem_map]
        constructor
        · rintro ⟨s, hs, rfl⟩
          obtain ⟨c, hc, rfl⟩ := (l2 s).1 hs
          exact hc
        · intro hc
          exact ⟨[c], (l2 _).2 ⟨c, hc, rfl⟩, rfl⟩
      · rw [hl]; exact joinComma_enumeration hne
  · cases found <;> rfl

/-- **C68** The report about the escape of a surrogate. -/
theorem C68_surrogate_text (red : Str → Str) (span : Span) (m : Str) (r : Report) (hr : ReportOf red (LexReport.custom span m).simple r) :
    r = ⟨span.start, m, [(span, red m)]⟩ := by
  obtain ⟨l, -, -, rfl⟩ := hr
  rfl

/-- Two errors, and reports the program may print for them. -/
example : Reports id c!"erd { a { $ id float } }"
    [⟨10, c!"Unexpected token in input, expected \r, \n, {, }, ., ;, `, o", [(⟨10, 11⟩, c!"Unexpected token $")]⟩,
     ⟨15, c!"Unexpected token in input, expected text, uuid, int, timestamp", [(⟨15, 20⟩, c!"Unexpected token float")]⟩] := by
  refine ⟨errorsOf c!"erd { a { $ id float } }", .refl _, ?_⟩
  have h : errorsOf c!"erd { a { $ id float } }" = [.unexpected ⟨10, 11⟩ (some c!"$") [c!"o", c!"`", c!"{", c!"}", c!";", c!".", c!"\n", c!"\r"],
      .unexpected ⟨15, 20⟩ (some c!"float") [c!"timestamp", c!"text", c!"uuid", c!"int"]] := by decide +kernel
  rw [h]
  refine .cons ⟨[c!"\r", c!"\n", c!"{", c!"}", c!".", c!";", c!"`", c!"o"], by decide, ?_, rfl⟩
    (.cons ⟨[c!"text", c!"uuid", c!"int", c!"timestamp"], by decide, ?_, rfl⟩ .nil)
  · exact fun s => List.Perm.mem_iff (by decide)
  · exact fun s => List.Perm.mem_iff (by decide)

/-- An identifier is shown as it is: the report about a quoted identifier `` `int` `` where a type is expected says both that `int` is
unexpected and that it is expected. -/
example : (parseReports c!"erd { a { id `int` } }").2 = [⟨⟨13, 18⟩, some (.ident c!"int"), [.timestamp, .text, .uuid, .int]⟩] ∧
    (Token.ident c!"int").display = Token.int.display := by decide +kernel

end Seiren
