import Verif.Proofs.Lexer
import Verif.Props.Parser
/-! # C03, C04, C05 (line ends), C06, C07, C08, C13, C14: the tokenizer -/

namespace Seiren
open Spec

/-! ## C03 -/

theorem scan_total (pos : Nat) (cs : Str) : ∃ ts errs, Scan pos cs ts errs := ⟨_, _, lexLoop_scan cs.length pos cs (le_refl _)⟩

/-- **C03.** A back-quoted sequence of pieces is one token, whatever follows it: its name is the decoded sequence, its span covers
it, and for each invalid `\u` escape (and only for these) it contributes an error. -/
theorem C03_quoted_identifier {s w : Str} {e : Nat} (h : Pieces s w e) (r : Str) :
    ∃ ts errs, tokenize ('`' :: (w ++ '`' :: r)) =
      (some ((.ident s, ⟨0, w.length + 2⟩) :: ts), List.replicate e .invalidUnicode ++ errs) ∧ Scan (w.length + 2) r ts errs := by
  obtain ⟨ts, errs, hsc⟩ := scan_total (w.length + 2) r
  refine ⟨ts, errs, ?_, hsc⟩
  rw [tokenize_exact]
  have := Scan.token (pos := 0) (g := []) (w := '`' :: (w ++ ['`'])) (r := r) (t := .ident s) (e := e) (ts := ts) (errs := errs)
    (.blanks (by simp)) ⟨.quoted h, fun h => absurd h quoted_not_word⟩ (by simpa using hsc)
  simpa using this

/-- **C03**, the decoding is unique. -/
theorem C03_decoding_unique {s s' w : Str} {e e' : Nat} (h : Pieces s w e) (h' : Pieces s' w e') : s = s' ∧ e = e' := by
  have h1 := lexQuotedBody_complete h [] w.length (le_refl _)
  have h2 := lexQuotedBody_complete h' [] w.length (le_refl _)
  rw [h1] at h2
  simp only [Prod.mk.injEq, and_true] at h2
  refine ⟨h2.1, ?_⟩
  have := congrArg List.length h2.2
  simpa using this

/-- **C03**, only these: a back quote that does not begin such a sequence does not begin a token. -/
theorem C03_only_pieces (cs : Str) (h : ¬ ∃ s w e r, cs = w ++ '`' :: r ∧ Pieces s w e) : Unreadable ('`' :: cs) := by
  rw [← lexToken_none_iff, lexToken_nonword (by decide)]
  cases hq : lexQuotedIdent ('`' :: cs) with
  | none => rfl
  | some x =>
    obtain ⟨t, errs, r⟩ := x
    obtain ⟨s, w, e, -, hp, -, he⟩ := (lexQuotedIdent_iff _ _ _ _).mp hq
    simp only [List.cons.injEq, true_and] at he
    exact absurd ⟨s, w, e, r, he, hp⟩ h

/-- Raw characters (one of them a newline), escapes, a valid and an invalid `\u` escape. -/
example : tokenize c!"`a\n\\`\\u00e9\\uD800`x" = (some [(.ident ['a', '\n', '`', 'é', Char.ofNat 0xFFFD], ⟨0, 18⟩), (.ident c!"x", ⟨18, 19⟩)], [.invalidUnicode]) := by
  decide +kernel

example : Pieces ['a', '\n', '`', 'é', Char.ofNat 0xFFFD] c!"a\n\\`\\u00e9\\uD800" 1 := by
  have d : ∀ c v, hexVal c = some v → HexDigit c v := fun c v => (hexVal_iff c v).mp
  exact .cons (.raw 'a' (by decide) (by decide)) <| .cons (.raw '\n' (by decide) (by decide)) <| .cons (.escape '`' '`' (by simp [escapes])) <|
    .cons (.unicode '0' '0' 'e' '9' 0 0 14 9 (d _ _ rfl) (d _ _ rfl) (d _ _ rfl) (d _ _ rfl) (by decide)) <|
    .cons (.surrogate 'D' '8' '0' '0' 13 8 0 0 (d _ _ rfl) (d _ _ rfl) (d _ _ rfl) (d _ _ rfl) (by decide)) .nil

/-! ## C04 -/

theorem gap_head {g r : Str} (hg : Gap g r) (hr : r.head? ≠ some '-') : (g ++ r).head? ≠ some '-' := by
  cases hg with
  | blanks h =>
    cases g with
    | nil => exact hr
    | cons c g =>
      have := h c (by simp)
      rcases this with rfl | rfl <;> simp
  | comment h hx hr' =>
    rename_i g x
    cases g with
    | nil => simp
    | cons c g =>
      have := h c (by simp)
      rcases this with rfl | rfl <;> simp

theorem lexeme_head {t : Token} {w : Str} {e : Nat} (h : Lexeme t w e) (r : Str) : (w ++ r).head? ≠ some '-' := by
  have word : IsWord w → (w ++ r).head? ≠ some '-' := by
    rintro ⟨c, cs, rfl, hc, -⟩ h
    simp only [List.cons_append, List.head?_cons, Option.some.injEq] at h
    subst h
    exact not_wordStart_of (by decide) hc
  cases h with
  | keyword h => exact word (keyword_isWord h)
  | word h => exact word h
  | ctrl h =>
    simp only [List.mem_cons, List.not_mem_nil, or_false] at h
    rcases h with rfl | rfl | rfl | rfl <;> simp
  | _ => simp

theorem layout_head {ls : List (Token × Nat)} {src : Str} (h : Layout ls src) : src.head? ≠ some '-' := by
  cases h with
  | nil hg => simpa using gap_head hg (by simp)
  | cons hg hl hw h => exact gap_head hg (lexeme_head hl _)

theorem scan_layout {ls : List (Token × Nat)} {src : Str} (h : Layout ls src) (pos : Nat) :
    ∃ ts, Scan pos src ts (List.replicate (ls.map Prod.snd).sum .invalidUnicode) ∧ ts.map Prod.fst = ls.map Prod.fst := by
  induction h generalizing pos with
  | nil hg =>
    rename_i g
    refine ⟨[], ?_, rfl⟩
    have := Scan.stop (pos := pos) hg ⟨by simp, by simp⟩ (by
      intro s hs
      rw [List.suffix_nil.mp hs, ← lexToken_none_iff]; rfl)
    simpa using this
  | cons hg hl hw h ih =>
    rename_i t w e g r ls
    obtain ⟨ts, hts, hm⟩ := ih (pos + g.length + w.length)
    refine ⟨(t, ⟨pos + g.length, pos + g.length + w.length⟩) :: ts, ?_, ?_⟩
    · have := Scan.token (pos := pos) hg ⟨hl, fun hw' => ⟨hw hw', ?_⟩⟩ hts
      · simp only [List.map_cons, List.sum_cons]
        rw [← List.replicate_append_replicate]
        exact this
      · rintro ⟨-, z, hz⟩
        refine layout_head h ?_
        rw [← hz]; rfl
    · simp [hm]

/-- **C04.** Two sources that consist of lexemes of the same tokens, however laid out, give the same module and the same errors. -/
theorem C04_layout_irrelevant (ls : List (Token × Nat)) (src src' : Str) (h : Layout ls src) (h' : Layout ls src') : parse src = parse src' := by
  obtain ⟨ts, h1, h2⟩ := scan_layout h 0
  obtain ⟨ts', h1', h2'⟩ := scan_layout h' 0
  unfold parse
  rw [(tokenize_exact _ _ _).mpr h1, (tokenize_exact _ _ _).mpr h1']
  simp only [h2, h2']

/-- What such a source gives: the parser's result for the tokens. -/
theorem C04_layout_result (ls : List (Token × Nat)) (src : Str) (h : Layout ls src) :
    parse src = ((parseTokens (ls.map Prod.fst)).1, List.replicate (ls.map Prod.snd).sum .invalidUnicode, (parseTokens (ls.map Prod.fst)).2) := by
  obtain ⟨ts, h1, h2⟩ := scan_layout h 0
  unfold parse
  rw [(tokenize_exact _ _ _).mpr h1]
  simp only [h2]

theorem layout_blank {ls : List (Token × Nat)} {src : Str} (h : Layout ls src) {c : Char} (hc : Blank c) : Layout ls (c :: src) := by
  have gap : ∀ {g r : Str}, Gap g r → Gap (c :: g) r := by
    intro g r hg
    cases hg with
    | blanks h => exact .blanks (by simpa using ⟨hc, h⟩)
    | comment h hx hr => exact Gap.comment (g := c :: _) (by simpa using ⟨hc, h⟩) hx hr
  cases h with
  | nil hg => exact .nil (gap hg)
  | cons hg hl hw h => exact Layout.cons (gap hg) hl hw h

theorem layout_tok {ls : List (Token × Nat)} {src w : Str} {t : Token} {e : Nat} (h : Layout ls src) (hl : Lexeme t w e)
    (hw : IsWord w → ∀ c ∈ src.head?, ¬ WordChar c) : Layout ((t, e) :: ls) (w ++ src) :=
  Layout.cons (g := []) (.blanks (by simp)) hl hw h

theorem gap_no_newline {g r : Str} (h : Gap g r) : '\n' ∉ g := by
  cases h with
  | blanks h =>
    intro hm
    simpa [Blank] using h _ hm
  | comment h hx hr =>
    intro hm
    simp only [List.mem_append, List.mem_cons] at hm
    rcases hm with hm | hm | hm | hm
    · simpa [Blank] using h _ hm
    · simp at hm
    · simp at hm
    · exact hx hm

theorem layout_comment {ls : List (Token × Nat)} {src : Str} (h : Layout ls ('\n' :: src)) {x : Str} (hx : '\n' ∉ x) :
    Layout ls ('/' :: '/' :: (x ++ '\n' :: src)) := by
  generalize e : '\n' :: src = s at h ⊢
  cases h with
  | nil hg =>
    have := gap_no_newline hg
    rw [← e] at this
    simp at this
  | cons hg hl hw h =>
    rename_i t w e' g r ls
    cases g with
    | nil =>
      rw [List.nil_append] at e ⊢
      have := Layout.cons (g := '/' :: '/' :: x) (w := w) (r := r) (Gap.comment (g := []) (by simp) hx (by rw [← e]; simp)) hl hw h
      simpa using this
    | cons c g =>
      simp only [List.cons_append, List.cons.injEq] at e
      have := gap_no_newline hg
      rw [← e.1] at this
      simp at this

/-- `erd{x{}}` with and without blanks, tabs and a comment. -/
example : parse c!"erd{a{\n}}" = parse c!" erd\t{ a { // the table\n  } }" := by
  have n : ∀ c s, isIdentStart c = false → isIdentContinue c = false → IsWord [c] → ∀ d ∈ (s : Str).head?, ¬ WordChar d := by
    intro c s h _ hw
    exact absurd hw (not_word_of h _)
  have a : Lexeme (.ident c!"a") c!"a" 0 := .word ⟨'a', [], rfl, (isIdentStart_iff _).mp (by decide), by simp⟩ (by simp [keywords])
  have k : Lexeme .erd c!"erd" 0 := .keyword (by simp [keywords])
  have o : Lexeme (.ctrl '{') ['{'] 0 := .ctrl (by simp)
  have c : Lexeme (.ctrl '}') ['}'] 0 := .ctrl (by simp)
  have nw : ∀ (d : Char) (s : Str), isIdentContinue d = false → ∀ c ∈ (d :: s).head?, ¬ WordChar c := by
    intro d s h c hc
    simp only [List.head?_cons, Option.mem_def, Option.some.injEq] at hc
    rw [← hc, ← isIdentContinue_iff, h]; simp
  have sp : Blank ' ' := Or.inl rfl
  have tb : Blank '\t' := Or.inr rfl
  have e0 : Layout [] [] := .nil (.blanks (by simp))
  refine C04_layout_irrelevant [(.erd, 0), (.ctrl '{', 0), (.ident c!"a", 0), (.ctrl '{', 0), (.newline, 0), (.ctrl '}', 0), (.ctrl '}', 0)] _ _ ?_ ?_
  · refine layout_tok (w := c!"erd") (src := c!"{a{\n}}") ?_ k fun _ => nw _ _ (by decide)
    refine layout_tok (w := c!"{") (src := c!"a{\n}}") ?_ o (n _ _ (by decide) (by decide))
    refine layout_tok (w := c!"a") (src := c!"{\n}}") ?_ a fun _ => nw _ _ (by decide)
    refine layout_tok (w := c!"{") (src := c!"\n}}") ?_ o (n _ _ (by decide) (by decide))
    refine layout_tok (w := c!"\n") (src := c!"}}") ?_ .newline (n _ _ (by decide) (by decide))
    refine layout_tok (w := c!"}") (src := c!"}") ?_ c (n _ _ (by decide) (by decide))
    exact layout_tok (w := c!"}") (src := []) e0 c (n _ _ (by decide) (by decide))
  · refine layout_blank ?_ sp
    refine layout_tok (w := c!"erd") (src := c!"\t{ a { // the table\n  } }") ?_ k fun _ => nw _ _ (by decide)
    refine layout_blank ?_ tb
    refine layout_tok (w := c!"{") (src := c!" a { // the table\n  } }") ?_ o (n _ _ (by decide) (by decide))
    refine layout_blank ?_ sp
    refine layout_tok (w := c!"a") (src := c!" { // the table\n  } }") ?_ a fun _ => nw _ _ (by decide)
    refine layout_blank ?_ sp
    refine layout_tok (w := c!"{") (src := c!" // the table\n  } }") ?_ o (n _ _ (by decide) (by decide))
    refine layout_blank ?_ sp
    refine layout_comment (x := c!" the table") (src := c!"  } }") ?_ (by simp)
    refine layout_tok (w := c!"\n") (src := c!"  } }") ?_ .newline (n _ _ (by decide) (by decide))
    refine layout_blank (layout_blank ?_ sp) sp
    refine layout_tok (w := c!"}") (src := c!" }") ?_ c (n _ _ (by decide) (by decide))
    refine layout_blank ?_ sp
    exact layout_tok (w := c!"}") (src := []) e0 c (n _ _ (by decide) (by decide))

/-! ## C08 -/

/-- **C08.** A word, after a gap and followed by no character that would continue it (nor by `--o` if it is `o`), is read as one token: the
keyword if it is one, otherwise the identifier with this spelling. -/
theorem C08_whole_words (g s r : Str) (hg : Gap g (s ++ r)) (hs : IsWord s) (hr : ∀ c ∈ r.head?, ¬ WordChar c) (ho : ¬ (s = c!"o" ∧ c!"--o" <+: r)) :
    ∃ t ts errs, tokenize (g ++ (s ++ r)) = (some ((t, ⟨g.length, g.length + s.length⟩) :: ts), errs) ∧
      (∀ k, (s, k) ∈ keywords → t = k) ∧ ((∀ k, (s, k) ∉ keywords) → t = .ident s) := by
  obtain ⟨ts, errs, hsc⟩ := scan_total (0 + g.length + s.length) r
  by_cases h : ∃ k, (s, k) ∈ keywords
  · obtain ⟨k, hk⟩ := h
    refine ⟨k, ts, errs, ?_, fun k' hk' => keyword_unique hk hk', fun h => absurd hk (h k)⟩
    rw [tokenize_exact]
    have := Scan.token (pos := 0) hg ⟨.keyword hk, fun _ => ⟨hr, ho⟩⟩ hsc
    simpa using this
  · push Not at h
    refine ⟨.ident s, ts, errs, ?_, fun k hk => absurd hk (h k), fun _ => rfl⟩
    rw [tokenize_exact]
    have := Scan.token (pos := 0) hg ⟨.word hs h, fun _ => ⟨hr, ho⟩⟩ hsc
    simpa using this

/-- Words that begin with a keyword, or are spelled like one in other letters. -/
example : (tokenize c!"int integer INT PK PKs _fk o").1 = some [(.int, ⟨0, 3⟩), (.ident c!"integer", ⟨4, 11⟩), (.ident c!"INT", ⟨12, 15⟩), (.pk, ⟨16, 18⟩),
    (.ident c!"PKs", ⟨19, 22⟩), (.ident c!"_fk", ⟨23, 26⟩), (.ident c!"o", ⟨27, 28⟩)] := by decide +kernel

/-! ## C07 -/

/-- **C07.** The tokenizer returns exactly the tokens and errors of the specification `Scan`, which loses no readable token: at none of the
characters skipped between two tokens a token can be read. -/
theorem C07_tokenizer_exact (src : Str) (ts : List (Token × Span)) (errs : List LexError) :
    tokenize src = (some ts, errs) ↔ Scan 0 src ts errs := tokenize_exact src ts errs

theorem scan_remainder {pos : Nat} {cs : Str} {ts : List (Token × Span)} {errs : List LexError} (h : Scan pos cs ts errs) :
    ∃ v r, cs = v ++ r ∧ NoTokenIn r ∧ ((ts.getLast?.map fun x => x.2.stop).getD pos = pos + v.length) := by
  induction h with
  | stop hg ht hr => exact ⟨[], _, rfl, ⟨_, _, rfl, hg, ht, hr⟩, by simp⟩
  | token hg hw h ih =>
    rename_i pos g w r t e ts errs
    obtain ⟨v, r', rfl, h1, h2⟩ := ih
    refine ⟨g ++ (w ++ v), r', by simp, h1, ?_⟩
    cases ts with
    | nil =>
      have h2' : v.length = 0 := by simpa using h2
      simp; omega
    | cons x ts =>
      rw [List.getLast?_cons_cons]
      have : ((x :: ts).getLast?.map fun x => x.2.stop).getD pos = ((x :: ts).getLast?.map fun x => x.2.stop).getD (pos + g.length + w.length) := by
        rw [List.getLast?_cons]; rfl
      rw [this, h2]; simp; omega
  | skip hg ht hx hu hw h ih =>
    rename_i pos g x w r t e ts errs
    obtain ⟨v, r', rfl, h1, h2⟩ := ih
    refine ⟨g ++ (x ++ (w ++ v)), r', by simp, h1, ?_⟩
    cases ts with
    | nil =>
      have h2' : v.length = 0 := by simpa using h2
      simp; omega
    | cons y ts =>
      rw [List.getLast?_cons_cons]
      have : ((y :: ts).getLast?.map fun x => x.2.stop).getD pos = ((y :: ts).getLast?.map fun x => x.2.stop).getD (pos + g.length + x.length + w.length) := by
        rw [List.getLast?_cons]; rfl
      rw [this, h2]; simp; omega

/-- **C07**, the remainder: behind the last token (or in the whole source if there is none), after a gap, no token can be read anywhere. -/
theorem C07_remainder (src : Str) : ∃ ts errs, tokenize src = (some ts, errs) ∧ NoTokenIn (src.drop ((ts.getLast?.map fun x => x.2.stop).getD 0)) := by
  obtain ⟨ts, errs, ht, hs⟩ := tokenize_scan src
  obtain ⟨v, r, rfl, h1, h2⟩ := scan_remainder hs
  refine ⟨ts, errs, ht, ?_⟩
  rw [h2]
  simpa using h1

/-- Garbage is skipped, what can be read in it is read (even in a comment), and garbage at the end is not reported. -/
example : tokenize c!"erd $ // a\n ` % b -- / + " =
    (some [(.erd, ⟨0, 3⟩), (.ident c!"a", ⟨4, 10⟩), (.newline, ⟨10, 11⟩), (.ident c!"b", ⟨12, 17⟩)], [.unexpected 4, .unexpected 12]) := by decide +kernel

/-! ## C06 -/

theorem scan_spans {pos : Nat} {cs : Str} {ts : List (Token × Span)} {errs : List LexError} (h : Scan pos cs ts errs) :
    (∀ x ∈ ts, pos ≤ x.2.start ∧ x.2.start < x.2.stop ∧ x.2.stop ≤ pos + cs.length) ∧ ts.Pairwise fun a b => a.2.stop ≤ b.2.start := by
  induction h with
  | stop => simp
  | token hg hw h ih =>
    rename_i pos g w r t e ts errs
    obtain ⟨h1, h2⟩ := ih
    have := List.length_pos_iff.mpr (lexeme_ne hw.1)
    constructor
    · intro x hx
      rw [List.mem_cons] at hx
      simp only [List.length_append]
      rcases hx with rfl | hx
      · simp only; omega
      · have := h1 x hx; omega
    · rw [List.pairwise_cons]
      exact ⟨fun x hx => (h1 x hx).1, h2⟩
  | skip hg ht hx hu hw h ih =>
    rename_i pos g x w r t e ts errs
    obtain ⟨h1, h2⟩ := ih
    have := List.length_pos_iff.mpr (lexeme_ne hw.1)
    constructor
    · intro y hy
      rw [List.mem_cons] at hy
      simp only [List.length_append]
      rcases hy with rfl | hy
      · simp only; omega
      · have := h1 y hy; omega
    · rw [List.pairwise_cons]
      exact ⟨fun y hy => (h1 y hy).1, h2⟩

/-- **C06.** Spans are in bounds, not empty, in order and disjoint. -/
theorem C06_spans (src : Str) : ∃ ts errs, tokenize src = (some ts, errs) ∧
    (∀ x ∈ ts, x.2.start < x.2.stop ∧ x.2.stop ≤ src.length) ∧ ts.Pairwise fun a b => a.2.stop ≤ b.2.start := by
  obtain ⟨ts, errs, ht, hs⟩ := tokenize_scan src
  obtain ⟨h1, h2⟩ := scan_spans hs
  refine ⟨ts, errs, ht, fun x hx => ?_, h2⟩
  have := h1 x hx
  omega

theorem slice_mid (a b c : Str) : slice (a ++ (b ++ c)) a.length (a.length + b.length) = b := by simp [slice]

theorem scan_located {pos : Nat} {cs : Str} {ts : List (Token × Span)} {errs : List LexError} (h : Scan pos cs ts errs) (he : errs = [])
    (p : Str) (hp : p.length = pos) : Located (p ++ cs) pos ts := by
  induction h generalizing p with
  | stop => exact .nil
  | token hg hw h ih =>
    rename_i pos g w r t e ts errs
    simp only [List.append_eq_nil_iff, List.replicate_eq_nil_iff] at he
    obtain ⟨rfl, rfl⟩ := he
    subst hp
    refine .cons (by omega) (by omega) ?_ ?_ ?_
    · rw [slice_mid p g (w ++ r)]
      have : (p ++ (g ++ (w ++ r))).drop (p.length + g.length) = w ++ r := by
        rw [← List.append_assoc, ← List.length_append, List.drop_left]
      rw [this]; exact hg
    · have := slice_mid (p ++ g) w r
      rw [List.append_assoc, List.length_append] at this
      rw [this]; exact hw.1
    · have := ih rfl (p ++ (g ++ w)) (by simp; omega)
      simpa using this
  | skip hg ht hx hu hw h ih => cases he

/-- **C06**, without errors: the characters of every span spell its token, and between spans there are gaps. -/
theorem C06_spans_spell_tokens (src : Str) (ts : List (Token × Span)) (h : tokenize src = (some ts, [])) : Located src 0 ts :=
  scan_located ((tokenize_exact _ _ _).mp h) rfl [] rfl

example : tokenize c!"erd {a. // b\n}" = (some [(.erd, ⟨0, 3⟩), (.ctrl '{', ⟨4, 5⟩), (.ident c!"a", ⟨5, 6⟩), (.ctrl '.', ⟨6, 7⟩), (.newline, ⟨12, 13⟩),
    (.ctrl '}', ⟨13, 14⟩)], []) := by decide +kernel

/-! ## C14 -/

theorem scan_no_errors {pos : Nat} {cs : Str} {ts : List (Token × Span)} {errs : List LexError} (h : Scan pos cs ts errs) (he : errs = []) :
    ∃ v r, cs = v ++ r ∧ LaidOut (ts.map Prod.fst) v r ∧ NoTokenIn r := by
  induction h with
  | stop hg ht hr => exact ⟨[], _, rfl, .nil, ⟨_, _, rfl, hg, ht, hr⟩⟩
  | token hg hw h ih =>
    simp only [List.append_eq_nil_iff, List.replicate_eq_nil_iff] at he
    obtain ⟨rfl, rfl⟩ := he
    obtain ⟨v, r, rfl, h1, h2⟩ := ih rfl
    exact ⟨_, r, by simp, .cons hg hw h1, h2⟩
  | skip hg ht hx hu hw h ih => cases he

theorem laidOut_scan {ts : List Token} {v r : Str} (h : LaidOut ts v r) (hr : NoTokenIn r) (pos : Nat) :
    ∃ xs, Scan pos (v ++ r) xs [] ∧ xs.map Prod.fst = ts := by
  induction h generalizing pos with
  | nil =>
    obtain ⟨g, x, rfl, h1, h2, h3⟩ := hr
    exact ⟨[], Scan.stop (g := g) h1 h2 h3, rfl⟩
  | cons hg hw h ih =>
    rename_i t ts g w v r
    obtain ⟨xs, h1, h2⟩ := ih hr (pos + g.length + w.length)
    refine ⟨(t, ⟨pos + g.length, pos + g.length + w.length⟩) :: xs, ?_, ?_⟩
    · have := Scan.token (pos := pos) hg hw h1
      simpa using this
    · simp [h2]

/-- **C14.** The tokenizer reports no error and returns these tokens exactly if the source consists of error-free lexemes of these tokens, each after a gap,
followed by something in which no token can be read. -/
theorem C14_errors_exact (src : Str) (ts : List Token) :
    (∃ xs, tokenize src = (some xs, []) ∧ xs.map Prod.fst = ts) ↔ ∃ v r, src = v ++ r ∧ LaidOut ts v r ∧ NoTokenIn r := by
  constructor
  · rintro ⟨xs, h, rfl⟩
    exact scan_no_errors ((tokenize_exact _ _ _).mp h) rfl
  · rintro ⟨v, r, rfl, h1, h2⟩
    obtain ⟨xs, h3, h4⟩ := laidOut_scan h1 h2 0
    exact ⟨xs, (tokenize_exact _ _ _).mpr h3, h4⟩

/-- **C14**, without naming the tokens. -/
theorem C14_no_error_iff (src : Str) : (tokenize src).2 = [] ↔ ∃ ts v r, src = v ++ r ∧ LaidOut ts v r ∧ NoTokenIn r := by
  obtain ⟨xs, errs, ht, -⟩ := tokenize_scan src
  constructor
  · intro h
    rw [ht] at h
    exact ⟨_, (C14_errors_exact src _).mp ⟨xs, h ▸ ht, rfl⟩⟩
  · rintro ⟨ts, h⟩
    obtain ⟨xs, h, -⟩ := (C14_errors_exact src ts).mpr h
    rw [h]

/-- Garbage between tokens is reported, trailing garbage is not. -/
example : (tokenize c!"erd { $ }").2 = [.unexpected 6] ∧ (tokenize c!"erd { } $ %").2 = [] := by decide +kernel

/-! ## C13 -/

/-- **C13**, as far as it holds: what is accepted without any error is a module, followed by well-formed tokens (any), followed by text in which no
token can be read; so unreadable text after the module is reported exactly if a token follows it.
Missing for the full claim: these two kinds of trailing text are not reported (`C13_refuted`, `C13_refuted_source`). -/
theorem C13_accepted_exact_partial (src : Str) (m : Module) :
    parse src = (some m, [], []) ↔
      ∃ w us v r, src = v ++ r ∧ ModuleG implemented m w ∧ LaidOut (w ++ us) v r ∧ NoTokenIn r := by
  obtain ⟨xs, errs, ht, -⟩ := tokenize_scan src
  have hp : parse src = ((parseTokens (xs.map Prod.fst)).1, errs, (parseTokens (xs.map Prod.fst)).2) := by unfold parse; rw [ht]
  constructor
  · intro h
    rw [hp] at h
    simp only [Prod.mk.injEq] at h
    obtain ⟨h1, rfl, -⟩ := h
    obtain ⟨w, us, e, hm⟩ := (C09_grammar_exact _ m).mp h1
    obtain ⟨v, r, hv, h2, h3⟩ := (C14_errors_exact src _).mp ⟨xs, ht, rfl⟩
    exact ⟨w, us, v, r, hv, hm, e ▸ h2, h3⟩
  · rintro ⟨w, us, v, r, hv, hm, h2, h3⟩
    obtain ⟨xs', ht', e⟩ := (C14_errors_exact src _).mpr ⟨v, r, hv, h2, h3⟩
    rw [ht] at ht'
    simp only [Prod.mk.injEq, Option.some.injEq] at ht'
    obtain ⟨rfl, rfl⟩ := ht'
    rw [hp, e, C13_refuted m w us hm]

example : parse c!"erd { } $ a" = (some ⟨none, []⟩, [.unexpected 8], []) ∧ parse c!"erd { } a $" = (some ⟨none, []⟩, [], []) := by decide +kernel

/-! ## C05, line ends -/

theorem crlf_append (a b : Str) : crlf (a ++ b) = crlf a ++ crlf b := by simp [crlf]

theorem crlf_id {a : Str} (h : '\n' ∉ a) : crlf a = a := by
  induction a with
  | nil => rfl
  | cons c a ih =>
    simp only [List.mem_cons, not_or] at h
    have e : crlf (c :: a) = crlf [c] ++ crlf a := crlf_append [c] a
    have e1 : crlf [c] = [c] := by simp [crlf, Ne.symm h.1]
    rw [e, ih h.2, e1]; rfl

/-- The beginning of a converted text, as far as there is no line end in it. -/
theorem crlf_prefix {v q u : Str} (h : crlf u = v ++ q) (hv : ∀ c ∈ v, c ≠ '\r') (hu : '\r' ∉ u) : ∃ q', u = v ++ q' ∧ q = crlf q' := by
  induction v generalizing u with
  | nil => exact ⟨u, rfl, h.symm⟩
  | cons c v ih =>
    cases u with
    | nil => cases h
    | cons d u =>
      have e : crlf (d :: u) = crlf [d] ++ crlf u := crlf_append [d] u
      rw [e] at h
      by_cases hd : d = '\n'
      · subst hd
        have : crlf c!"\n" = c!"\r\n" := rfl
        rw [this] at h
        simp only [List.cons_append, List.cons.injEq] at h
        exact absurd h.1.symm (hv c (by simp))
      · rw [crlf_id (by simpa using Ne.symm hd)] at h
        simp only [List.cons_append, List.nil_append, List.cons.injEq] at h
        obtain ⟨rfl, h⟩ := h
        obtain ⟨q', rfl, h2⟩ := ih h (fun c hc => hv c (by simp [hc])) (fun hm => hu (by simp [hm]))
        exact ⟨q', rfl, h2⟩

theorem crlf_head (r : Str) (h : ∀ c ∈ r.head?, ¬ WordChar c) : ∀ c ∈ (crlf r).head?, ¬ WordChar c := by
  cases r with
  | nil => exact h
  | cons d r =>
    have e : crlf (d :: r) = crlf [d] ++ crlf r := crlf_append [d] r
    by_cases hd : d = '\n'
    · subst hd
      intro c hc
      rw [e] at hc
      simp [crlf] at hc
      rw [← hc, ← isIdentContinue_iff]; decide
    · rw [e, crlf_id (by simpa using Ne.symm hd)]
      simpa using h

theorem crlf_head' (r : Str) (h : ∀ c ∈ (crlf r).head?, ¬ WordChar c) : ∀ c ∈ r.head?, ¬ WordChar c := by
  cases r with
  | nil => exact h
  | cons d r =>
    have e : crlf (d :: r) = crlf [d] ++ crlf r := crlf_append [d] r
    by_cases hd : d = '\n'
    · subst hd
      intro c hc
      simp only [List.head?_cons, Option.mem_def, Option.some.injEq] at hc
      rw [← hc, ← isIdentContinue_iff]; decide
    · rw [e, crlf_id (by simpa using Ne.symm hd)] at h
      simpa using h

/-- A lexeme without back quotes and carriage returns is a newline or contains no line end. -/
theorem lexeme_line {t : Token} {w : Str} {e : Nat} (h : Lexeme t w e) (hq : w.head? ≠ some '`') (hr : '\r' ∉ w) :
    (t = .newline ∧ w = c!"\n" ∧ e = 0) ∨ ('\n' ∉ w) := by
  have word : IsWord w → '\n' ∉ w := by
    rintro ⟨c, cs, rfl, hc, hcs⟩ hm
    rw [List.mem_cons] at hm
    rcases hm with rfl | hm
    · exact not_wordStart_of (by decide) hc
    · have := hcs _ hm
      rw [← isIdentContinue_iff] at this
      exact absurd this (by decide)
  cases h with
  | edge => exact Or.inr (by decide)
  | keyword h => exact Or.inr (word (keyword_isWord h))
  | word h => exact Or.inr (word h)
  | quoted h => simp at hq
  | ctrl h =>
    simp only [List.mem_cons, List.not_mem_nil, or_false] at h
    rcases h with rfl | rfl | rfl | rfl <;> exact Or.inr (by decide)
  | newline => exact Or.inl ⟨rfl, rfl, rfl⟩
  | crlf => simp at hr

theorem newline_readable (r : Str) : ¬ Unreadable ('\n' :: r) := by
  intro h
  exact h .newline c!"\n" 0 r rfl ⟨.newline, fun h => absurd h (not_word_of (by decide) _)⟩

theorem reads_crlf {t : Token} {w : Str} {e : Nat} {r : Str} (h : Reads t w e r) (hr : '\r' ∉ r) : Reads t w e (crlf r) := by
  refine ⟨h.1, fun hw => ⟨crlf_head r (h.2 hw).1, ?_⟩⟩
  rintro ⟨ho, z, hz⟩
  obtain ⟨q, hq, -⟩ := crlf_prefix (v := c!"--o") hz.symm (by simp) hr
  exact (h.2 hw).2 ⟨ho, q, hq.symm⟩

theorem unreadable_crlf {u : Str} (h : Unreadable u) (hq : '`' ∉ u) (hr : '\r' ∉ u) : Unreadable (crlf u) := by
  intro t w e q he hrd
  have hn : u.head? ≠ some '\n' := by
    intro hh
    cases u with
    | nil => cases hh
    | cons c u =>
      simp only [List.head?_cons, Option.some.injEq] at hh
      subst hh
      exact newline_readable u h
  have hhead : (crlf u).head? = u.head? := by
    cases u with
    | nil => rfl
    | cons c u =>
      have hc : c ≠ '\n' := by simpa using hn
      rw [show crlf (c :: u) = crlf [c] ++ crlf u from crlf_append [c] u, crlf_id (by simpa using Ne.symm hc)]
      rfl
  have hwh : (w ++ q).head? = u.head? := by rw [← he, hhead]
  have hne := lexeme_ne hrd.1
  have hw0 : w.head? = u.head? := by
    cases w with
    | nil => exact absurd rfl hne
    | cons c w => simpa using hwh
  have mem : ∀ c, u.head? = some c → c ∈ u := fun c hc => List.mem_of_mem_head? hc
  have hnr : ∀ c ∈ w, c ≠ '\r' := by
    rintro c hc rfl
    have word : IsWord w → False := by
      rintro ⟨d, ds, rfl, hd, hds⟩
      rw [List.mem_cons] at hc
      rcases hc with rfl | hc
      · exact not_wordStart_of (by decide) hd
      · have := hds _ hc
        rw [← isIdentContinue_iff] at this
        exact absurd this (by decide)
    obtain ⟨hl, -⟩ := hrd
    cases hl with
    | edge => revert hc; decide
    | keyword h => exact word (keyword_isWord h)
    | word h => exact word h
    | quoted h => exact hq (mem '`' hw0.symm)
    | ctrl h =>
      simp only [List.mem_cons, List.not_mem_nil, or_false] at h
      rcases h with rfl | rfl | rfl | rfl <;> (revert hc; decide)
    | newline => revert hc; decide
    | crlf => exact hr (mem '\r' hw0.symm)
  obtain ⟨q', rfl, rfl⟩ := crlf_prefix he hnr hr
  refine h t w e q' rfl ⟨hrd.1, fun hw => ⟨crlf_head' q' (hrd.2 hw).1, ?_⟩⟩
  rintro ⟨ho, z, hz⟩
  refine (hrd.2 hw).2 ⟨ho, crlf z, ?_⟩
  rw [← hz, crlf_append]
  rfl

/-- A gap before anything that does not begin with a newline consists of blanks. -/
theorem gap_blanks {g r : Str} {c : Char} (h : Gap g (c :: r)) (hc : c ≠ '\n') : ∀ d ∈ g, Blank d := by
  cases h with
  | blanks h => exact h
  | comment h hx hr => exact absurd (hr c (by simp)) hc

/-- Is it the error for an invalid escape? -/
def Spec.isEscapeError (e : LexError) : Bool := e == .invalidUnicode

theorem scan_crlf {pos : Nat} {cs : Str} {ts : List (Token × Span)} {errs : List LexError} (h : Scan pos cs ts errs) (hq : '`' ∉ cs) (hr : '\r' ∉ cs)
    (pos' : Nat) : ∃ ts' errs', Scan pos' (crlf cs) ts' errs' ∧ ts'.map Prod.fst = ts.map Prod.fst ∧ errs'.map isEscapeError = errs.map isEscapeError := by
  induction h generalizing pos' with
  | stop hg ht hu =>
    rename_i pos g r
    have hn : '\n' ∉ r := by
      intro hm
      obtain ⟨a, b, rfl⟩ := List.append_of_mem hm
      exact newline_readable b (hu ('\n' :: b) (List.suffix_append _ _))
    refine ⟨[], [], ?_, rfl, rfl⟩
    rw [crlf_append, crlf_id (gap_no_newline hg), crlf_id hn]
    exact .stop hg ht hu
  | token hg hw h ih =>
    rename_i pos g w r t e ts errs
    simp only [List.mem_append, not_or] at hq hr
    have hne := lexeme_ne hw.1
    rcases lexeme_line hw.1 (by
      intro hh
      exact hq.2.1 (List.mem_of_mem_head? hh)) hr.2.1 with ⟨rfl, rfl, rfl⟩ | hn
    · cases hg with
      | blanks hg =>
        obtain ⟨ts', errs', h1, h2, h3⟩ := ih hq.2.2 hr.2.2 (pos' + g.length + 2)
        refine ⟨(.newline, ⟨pos' + g.length, pos' + g.length + 2⟩) :: ts', errs', ?_, by simp [h2], by simpa using h3⟩
        rw [crlf_append, crlf_append, crlf_id (gap_no_newline (r := []) (.blanks hg))]
        have := Scan.token (pos := pos') (g := g) (w := c!"\r\n") (r := crlf r) (.blanks hg) ⟨.crlf, fun h => absurd h (not_word_of (by decide) _)⟩ h1
        have e1 : crlf c!"\n" = c!"\r\n" := rfl
        rw [e1]
        simpa using this
      | comment hg hx hr' =>
        rename_i g x
        obtain ⟨ts', errs', h1, h2, h3⟩ := ih hq.2.2 hr.2.2 (pos' + (g ++ ('/' :: '/' :: (x ++ c!"\r"))).length + 1)
        refine ⟨(.newline, ⟨pos' + (g ++ ('/' :: '/' :: (x ++ c!"\r"))).length, pos' + (g ++ ('/' :: '/' :: (x ++ c!"\r"))).length + 1⟩) :: ts', errs', ?_,
          by simp [h2], by simpa using h3⟩
        rw [crlf_append _ (c!"\n" ++ r), crlf_append _ r, crlf_id (gap_no_newline (.comment hg hx hr'))]
        have := Scan.token (pos := pos') (g := g ++ ('/' :: '/' :: (x ++ c!"\r"))) (w := c!"\n") (r := crlf r)
          (.comment hg (by simpa using hx) (by simp)) ⟨.newline, fun h => absurd h (not_word_of (by decide) _)⟩ h1
        have e1 : crlf c!"\n" = c!"\r\n" := rfl
        rw [e1]
        simpa using this
    · obtain ⟨ts', errs', h1, h2, h3⟩ := ih hq.2.2 hr.2.2 (pos' + g.length + w.length)
      have hb : ∀ d ∈ g, Blank d := by
        cases w with
        | nil => exact absurd rfl hne
        | cons c w =>
          refine gap_blanks hg ?_
          rintro rfl; simp at hn
      refine ⟨(t, ⟨pos' + g.length, pos' + g.length + w.length⟩) :: ts', List.replicate e .invalidUnicode ++ errs', ?_, by simp [h2], by simp [h3]⟩
      rw [crlf_append, crlf_append, crlf_id (gap_no_newline hg), crlf_id hn]
      exact Scan.token (.blanks hb) (reads_crlf hw hr.2.2) h1
  | skip hg ht hx hu hw h ih =>
    rename_i pos g x w r t e ts errs
    simp only [List.mem_append, not_or] at hq hr
    have hxn : '\n' ∉ x := by
      intro hm
      obtain ⟨a, b, rfl⟩ := List.append_of_mem hm
      exact newline_readable _ (hu ('\n' :: b) (List.suffix_append _ _) (by simp))
    have hb : ∀ d ∈ g, Blank d := by
      cases x with
      | nil => exact absurd rfl hx
      | cons c x =>
        refine gap_blanks hg ?_
        rintro rfl; simp at hxn
    have hun : ∀ y, y <:+ x → y ≠ [] → Unreadable (y ++ (crlf w ++ crlf r)) := by
      intro y hy hne
      have sub : ∀ c, c ∈ y → c ∈ x := fun c hc => hy.subset hc
      have := unreadable_crlf (hu y hy hne) (by
        simp only [List.mem_append, not_or]; exact ⟨fun h => hq.2.1 (sub _ h), hq.2.2⟩) (by
        simp only [List.mem_append, not_or]; exact ⟨fun h => hr.2.1 (sub _ h), hr.2.2⟩)
      rwa [crlf_append, crlf_append, crlf_id fun h => hxn (sub _ h)] at this
    have htx : ∀ z, (∀ c ∈ z.head?, c = '/' → c ∈ (w ++ r).head?) → Tight (x ++ z) := by
      intro z hz
      cases x with
      | nil => exact absurd rfl hx
      | cons c x =>
        refine ⟨by simpa using ht.1, ?_⟩
        rintro ⟨q, hq'⟩
        cases x with
        | cons d x =>
          simp only [List.cons_append, List.cons.injEq, List.nil_append] at hq'
          exact ht.2 ⟨x ++ (w ++ r), by rw [← hq'.1, ← hq'.2.1]; rfl⟩
        | nil =>
          simp only [List.cons_append, List.cons.injEq, List.nil_append] at hq'
          have h1 := hz '/' (by rw [← hq'.2]; simp) rfl
          obtain ⟨z', hz'⟩ := List.head?_eq_some_iff.mp h1
          exact ht.2 ⟨z', by rw [← hq'.1, hz']; rfl⟩
    rcases lexeme_line hw.1 (by
      intro hh
      exact hq.2.2.1 (List.mem_of_mem_head? hh)) hr.2.2.1 with ⟨rfl, rfl, rfl⟩ | hn
    · obtain ⟨ts', errs', h1, h2, h3⟩ := ih hq.2.2.2 hr.2.2.2 (pos' + g.length + x.length + 2)
      refine ⟨(.newline, ⟨pos' + g.length, pos' + g.length + x.length + 2⟩) :: ts', .unexpected (pos' + g.length) :: errs', ?_, by simp [h2], by
        simpa [isEscapeError] using h3⟩
      rw [crlf_append, crlf_append, crlf_append, crlf_id (gap_no_newline hg), crlf_id hxn]
      have e1 : crlf c!"\n" = c!"\r\n" := rfl
      rw [e1] at hun ⊢
      have := Scan.skip (pos := pos') (g := g) (w := c!"\r\n") (r := crlf r) (.blanks hb) (htx _ (by simp)) hx hun
        ⟨.crlf, fun h => absurd h (not_word_of (by decide) _)⟩ h1
      simpa using this
    · obtain ⟨ts', errs', h1, h2, h3⟩ := ih hq.2.2.2 hr.2.2.2 (pos' + g.length + x.length + w.length)
      refine ⟨(t, ⟨pos' + g.length, pos' + g.length + x.length + w.length⟩) :: ts', .unexpected (pos' + g.length) ::
        (List.replicate e .invalidUnicode ++ errs'), ?_, by simp [h2], by simp [h3, isEscapeError]⟩
      rw [crlf_id hn] at hun
      rw [crlf_append, crlf_append, crlf_append, crlf_id (gap_no_newline hg), crlf_id hxn, crlf_id hn]
      refine Scan.skip (.blanks hb) (htx _ ?_) hx hun (reads_crlf hw hr.2.2.2) h1
      intro c hc _
      have hne := lexeme_ne hw.1
      cases w with
      | nil => exact absurd rfl hne
      | cons d w => simpa using hc

/-- **C05**, line ends: a source without back quotes and carriage returns gives the same module, the same parser errors and the same kinds of
tokenizer errors (their positions are shifted) after conversion to CRLF line ends. -/
theorem C05_crlf (src : Str) (hq : '`' ∉ src) (hr : '\r' ∉ src) :
    (parse (crlf src)).1 = (parse src).1 ∧ (parse (crlf src)).2.2 = (parse src).2.2 ∧
      (parse (crlf src)).2.1.map isEscapeError = (parse src).2.1.map isEscapeError := by
  obtain ⟨ts, errs, ht, hs⟩ := tokenize_scan src
  obtain ⟨ts', errs', h1, h2, h3⟩ := scan_crlf hs hq hr 0
  unfold parse
  rw [ht, (tokenize_exact _ _ _).mpr h1]
  simp only [h2, h3, and_self]

/-- With a comment, whose text then includes the carriage return. -/
example : crlf c!"erd { // x\n}\n" = c!"erd { // x\r\n}\r\n" ∧ (tokenize c!"erd { // x\n}\n").1 = some [(.erd, ⟨0, 3⟩), (.ctrl '{', ⟨4, 5⟩), (.newline, ⟨10, 11⟩), (.ctrl '}', ⟨11, 12⟩), (.newline, ⟨12, 13⟩)] ∧
    (tokenize c!"erd { // x\r\n}\r\n").1 = some [(.erd, ⟨0, 3⟩), (.ctrl '{', ⟨4, 5⟩), (.newline, ⟨11, 12⟩), (.ctrl '}', ⟨12, 13⟩), (.newline, ⟨13, 15⟩)] := by
  decide +kernel

/-- In back quotes a line end belongs to the name, so there the conversion does change the result. -/
example : (parse (crlf c!"erd `a\n` { }")).1 ≠ (parse c!"erd `a\n` { }").1 := by decide +kernel

end Seiren
