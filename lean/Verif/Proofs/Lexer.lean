import Verif.Spec.Lexical
import Verif.Proofs.Parser
import Mathlib.Tactic.IntervalCases
import Mathlib.Tactic.Ring
/-! # Lemmas about the tokenizer -/

namespace Seiren
open Spec

theorem isIdentStart_iff (c : Char) : isIdentStart c = true ↔ WordStart c := by
  simp only [isIdentStart, Char.isAlpha, Char.isUpper, Char.isLower, WordStart, Bool.or_eq_true, Bool.and_eq_true, decide_eq_true_eq,
    beq_iff_eq, Char.le_def, ge_iff_le]
  tauto

theorem isIdentContinue_iff (c : Char) : isIdentContinue c = true ↔ WordChar c := by
  simp only [isIdentContinue, Char.isAlphanum, Char.isAlpha, Char.isUpper, Char.isLower, Char.isDigit, WordChar, WordStart, Bool.or_eq_true,
    Bool.and_eq_true, decide_eq_true_eq, beq_iff_eq, Char.le_def, ge_iff_le]
  tauto

theorem lexJust_iff (p cs r : Str) : lexJust p cs = some r ↔ cs = p ++ r := by
  induction p generalizing cs with
  | nil => simp [lexJust]
  | cons a p ih =>
    cases cs with
    | nil => simp [lexJust]
    | cons c cs =>
      rw [lexJust]
      split_ifs with h
      · subst h; rw [ih]; simp
      · simp only [List.cons_append, List.cons.injEq, false_iff]
        intro h'; exact h h'.1.symm

theorem takeWhile_append {α : Type} (p : α → Bool) (w r : List α) (hw : ∀ x ∈ w, p x = true) (hr : ∀ x ∈ r.head?, p x = false) :
    (w ++ r).takeWhile p = w ∧ (w ++ r).dropWhile p = r := by
  induction w with
  | nil =>
    cases r with
    | nil => simp
    | cons a r => simp [hr a (by simp)]
  | cons a w ih =>
    have ha := hw a (by simp)
    obtain ⟨h1, h2⟩ := ih fun x hx => hw x (by simp [hx])
    simp [ha, h1, h2]

theorem dropWhile_head? {α : Type} (p : α → Bool) (l : List α) : ∀ x ∈ (l.dropWhile p).head?, p x = false := by
  intro x hx
  rcases dropWhile_head p l with h | ⟨a, r, h, ha⟩
  · rw [h] at hx; simp at hx
  · rw [h] at hx
    simp only [List.head?_cons, Option.mem_def, Option.some.injEq] at hx
    exact hx ▸ ha

theorem lexIdentStr_iff (cs s r : Str) :
    lexIdentStr cs = some (s, r) ↔ cs = s ++ r ∧ IsWord s ∧ ∀ c ∈ r.head?, ¬ WordChar c := by
  cases cs with
  | nil =>
    simp only [lexIdentStr, reduceCtorEq, false_iff, not_and]
    intro h hw
    obtain ⟨c, cs, rfl, -⟩ := hw
    simp at h
  | cons c cs =>
    simp only [lexIdentStr]
    constructor
    · intro h
      split_ifs at h with hc
      simp only [Option.some.injEq, Prod.mk.injEq] at h
      obtain ⟨rfl, rfl⟩ := h
      refine ⟨by simp, ⟨c, _, rfl, (isIdentStart_iff c).mp hc, ?_⟩, ?_⟩
      · intro d hd
        exact (isIdentContinue_iff d).mp (takeWhile_all _ _ d hd)
      · intro d hd
        rw [← isIdentContinue_iff, dropWhile_head? _ _ d hd]; simp
    · rintro ⟨h, ⟨d, ds, rfl, hd, hds⟩, hr⟩
      simp only [List.cons_append, List.cons.injEq] at h
      obtain ⟨rfl, rfl⟩ := h
      rw [if_pos ((isIdentStart_iff c).mpr hd)]
      obtain ⟨h1, h2⟩ := takeWhile_append isIdentContinue ds r (fun x hx => (isIdentContinue_iff x).mpr (hds x hx))
        (fun x hx => by have := hr x hx; rwa [← isIdentContinue_iff, Bool.not_eq_true] at this)
      rw [h1, h2]

theorem lexKeyword_iff (cs r : Str) (t : Token) :
    lexKeyword cs = some (t, r) ↔ ∃ s, lexIdentStr cs = some (s, r) ∧ (s, t) ∈ keywords := by
  unfold lexKeyword lexKeywordStr
  cases h : lexIdentStr cs with
  | none => simp
  | some x =>
    obtain ⟨s, r'⟩ := x
    simp only [Option.some.injEq, Prod.mk.injEq]
    constructor
    · intro h
      refine ⟨s, ?_⟩
      simp only [keywords]
      split_ifs at h with h1 h2 h3 h4 h5 h6 h7 <;> simp_all
    · rintro ⟨s', ⟨rfl, rfl⟩, hm⟩
      simp only [keywords, List.mem_cons, Prod.mk.injEq, List.not_mem_nil, or_false] at hm
      rcases hm with ⟨rfl, rfl⟩ | ⟨rfl, rfl⟩ | ⟨rfl, rfl⟩ | ⟨rfl, rfl⟩ | ⟨rfl, rfl⟩ | ⟨rfl, rfl⟩ | ⟨rfl, rfl⟩ <;> simp

/-! ## Quoted identifiers -/

theorem hexVal_iff (c : Char) (v : Nat) : hexVal c = some v ↔ HexDigit c v := by
  constructor
  · intro h
    have key : ∀ n : Nat, c.toNat = n → c = Char.ofNat n := by rintro n rfl; exact (Char.ofNat_toNat c).symm
    unfold hexVal at h
    simp only [Char.le_def, UInt32.le_iff_toNat_le] at h
    unfold HexDigit
    have e : c.val.toNat = c.toNat := rfl
    rw [e] at h
    split_ifs at h with h1 h2 h3
    all_goals simp only [Option.some.injEq] at h
    · obtain ⟨n, hn⟩ : ∃ n, c.toNat = n := ⟨_, rfl⟩
      have hu : n ≤ 57 := hn ▸ h1.2
      have hl : 48 ≤ n := hn ▸ h1.1
      left
      rw [key n hn]
      rw [hn] at h
      clear h1 hn
      interval_cases n <;> subst h <;> rfl
    · obtain ⟨n, hn⟩ : ∃ n, c.toNat = n := ⟨_, rfl⟩
      have hu : n ≤ 102 := hn ▸ h2.2
      have hl : 97 ≤ n := hn ▸ h2.1
      left
      rw [key n hn]
      rw [hn] at h
      clear h2 hn
      interval_cases n <;> subst h <;> rfl
    · obtain ⟨n, hn⟩ : ∃ n, c.toNat = n := ⟨_, rfl⟩
      have hu : n ≤ 70 := hn ▸ h3.2
      have hl : 65 ≤ n := hn ▸ h3.1
      right
      rw [key n hn]
      rw [hn] at h
      clear h3 hn
      interval_cases n <;> subst h <;> rfl
  · rintro (h | h)
    all_goals
      have hv : v < 16 := by
        have := (List.getElem?_eq_some_iff.mp h).1
        simpa using this
      interval_cases v <;> (simp at h; subst h; decide)

theorem hexDigit_lt {c : Char} {v : Nat} (h : HexDigit c v) : v < 16 := by
  rcases h with h | h
  all_goals
    have := (List.getElem?_eq_some_iff.mp h).1
    simpa using this

theorem unicodeChar_eq (i j k l : Nat) (hi : i < 16) (hj : j < 16) (hk : k < 16) (hl : l < 16) :
    unicodeChar (((i * 16 + j) * 16 + k) * 16 + l) =
      if 0xD800 ≤ 4096 * i + 256 * j + 16 * k + l ∧ 4096 * i + 256 * j + 16 * k + l ≤ 0xDFFF then (Char.ofNat 0xFFFD, [.invalidUnicode])
      else (Char.ofNat (4096 * i + 256 * j + 16 * k + l), []) := by
  have e : ((i * 16 + j) * 16 + k) * 16 + l = 4096 * i + 256 * j + 16 * k + l := by ring
  rw [e]
  unfold unicodeChar
  have hv : (4096 * i + 256 * j + 16 * k + l).isValidChar ↔
      ¬ (0xD800 ≤ 4096 * i + 256 * j + 16 * k + l ∧ 4096 * i + 256 * j + 16 * k + l ≤ 0xDFFF) := by
    unfold Nat.isValidChar
    omega
  by_cases h : 0xD800 ≤ 4096 * i + 256 * j + 16 * k + l ∧ 4096 * i + 256 * j + 16 * k + l ≤ 0xDFFF
  · rw [if_pos h, if_neg (fun h' => hv.mp h' h)]
  · rw [if_neg h, if_pos (hv.mpr h)]

theorem lexEscape_sound {cs : Str} {c : Char} {errs : List LexError} {r : Str} (h : lexEscape cs = some (c, errs, r)) :
    ∃ w e, Piece c ('\\' :: w) e ∧ errs = List.replicate e .invalidUnicode ∧ cs = w ++ r := by
  unfold lexEscape at h
  split at h
  iterate 9
    · simp only [Option.some.injEq, Prod.mk.injEq] at h
      obtain ⟨rfl, rfl, rfl⟩ := h
      exact ⟨_, 0, .escape _ _ (by simp [escapes]), rfl, rfl⟩
  · rename_i a b c d cs
    cases ha : hexVal a with
    | none => simp [ha] at h
    | some i =>
      cases hb : hexVal b with
      | none => simp [ha, hb] at h
      | some j =>
        cases hc : hexVal c with
        | none => simp [ha, hb, hc] at h
        | some k =>
          cases hd : hexVal d with
          | none => simp [ha, hb, hc, hd] at h
          | some l =>
            rw [hexVal_iff] at ha hb hc hd
            rw [(hexVal_iff _ _).mpr ha, (hexVal_iff _ _).mpr hb, (hexVal_iff _ _).mpr hc, (hexVal_iff _ _).mpr hd] at h
            simp only [unicodeChar_eq i j k l (hexDigit_lt ha) (hexDigit_lt hb) (hexDigit_lt hc) (hexDigit_lt hd)] at h
            split_ifs at h with hs
            · simp only [Option.some.injEq, Prod.mk.injEq] at h
              obtain ⟨rfl, rfl, rfl⟩ := h
              exact ⟨_, 1, .surrogate _ _ _ _ i j k l ha hb hc hd hs, rfl, rfl⟩
            · simp only [Option.some.injEq, Prod.mk.injEq] at h
              obtain ⟨rfl, rfl, rfl⟩ := h
              exact ⟨_, 0, .unicode _ _ _ _ i j k l ha hb hc hd hs, rfl, rfl⟩
  · cases h

theorem lexQuotedChar_sound {cs : Str} {c : Char} {errs : List LexError} {r : Str} (h : lexQuotedChar cs = some (c, errs, r)) :
    ∃ w e, Piece c w e ∧ errs = List.replicate e .invalidUnicode ∧ cs = w ++ r := by
  cases cs with
  | nil => cases h
  | cons d cs =>
    simp only [lexQuotedChar] at h
    split_ifs at h with h1 h2
    · simp only [Option.some.injEq, Prod.mk.injEq] at h
      obtain ⟨rfl, rfl, rfl⟩ := h
      exact ⟨[d], 0, .raw d h1.1 h1.2, rfl, rfl⟩
    · subst h2
      obtain ⟨w, e, hp, he, rfl⟩ := lexEscape_sound h
      exact ⟨'\\' :: w, e, hp, he, rfl⟩

theorem lexQuotedChar_complete {c : Char} {w : Str} {e : Nat} (h : Piece c w e) (r : Str) :
    lexQuotedChar (w ++ r) = some (c, List.replicate e .invalidUnicode, r) := by
  cases h with
  | raw _ h1 h2 => simp [lexQuotedChar, h1, h2]
  | escape x c h =>
    simp only [escapes, List.mem_cons, Prod.mk.injEq, List.not_mem_nil, or_false] at h
    rcases h with ⟨rfl, rfl⟩ | ⟨rfl, rfl⟩ | ⟨rfl, rfl⟩ | ⟨rfl, rfl⟩ | ⟨rfl, rfl⟩ | ⟨rfl, rfl⟩ | ⟨rfl, rfl⟩ | ⟨rfl, rfl⟩ | ⟨rfl, rfl⟩ <;> rfl
  | unicode a b c d i j k l ha hb hc hd hs =>
    simp only [lexQuotedChar, lexEscape, List.cons_append, List.nil_append, (hexVal_iff _ _).mpr ha, (hexVal_iff _ _).mpr hb, (hexVal_iff _ _).mpr hc,
      (hexVal_iff _ _).mpr hd, unicodeChar_eq i j k l (hexDigit_lt ha) (hexDigit_lt hb) (hexDigit_lt hc) (hexDigit_lt hd), if_neg hs]
    simp
  | surrogate a b c d i j k l ha hb hc hd hs =>
    simp only [lexQuotedChar, lexEscape, List.cons_append, List.nil_append, (hexVal_iff _ _).mpr ha, (hexVal_iff _ _).mpr hb, (hexVal_iff _ _).mpr hc,
      (hexVal_iff _ _).mpr hd, unicodeChar_eq i j k l (hexDigit_lt ha) (hexDigit_lt hb) (hexDigit_lt hc) (hexDigit_lt hd), if_pos hs]
    simp

theorem piece_ne {c : Char} {w : Str} {e : Nat} (h : Piece c w e) : w ≠ [] := by cases h <;> simp

/-- The fuel of `lexQuotedBody` is enough: no further piece could be read at the end. -/
theorem lexQuotedBody_fuel (fuel : Nat) (cs : Str) (h : cs.length ≤ fuel) : lexQuotedChar (lexQuotedBody fuel cs).2.2 = none := by
  induction fuel generalizing cs with
  | zero =>
    have : cs = [] := List.length_eq_zero_iff.mp (by omega)
    subst this; rfl
  | succ fuel ih =>
    rw [lexQuotedBody]
    cases hq : lexQuotedChar cs with
    | none => exact hq
    | some x =>
      obtain ⟨c, errs, r⟩ := x
      obtain ⟨w, e, hp, -, rfl⟩ := lexQuotedChar_sound hq
      have := List.length_pos_iff.mpr (piece_ne hp)
      exact ih r (by rw [List.length_append] at h; omega)

theorem lexQuotedBody_sound (fuel : Nat) (cs : Str) :
    ∃ w e, Pieces (lexQuotedBody fuel cs).1 w e ∧ (lexQuotedBody fuel cs).2.1 = List.replicate e .invalidUnicode ∧
      cs = w ++ (lexQuotedBody fuel cs).2.2 := by
  induction fuel generalizing cs with
  | zero => exact ⟨[], 0, .nil, rfl, rfl⟩
  | succ fuel ih =>
    rw [lexQuotedBody]
    cases hq : lexQuotedChar cs with
    | none => exact ⟨[], 0, .nil, rfl, rfl⟩
    | some x =>
      obtain ⟨c, errs, r⟩ := x
      obtain ⟨w, e, hp, rfl, rfl⟩ := lexQuotedChar_sound hq
      obtain ⟨v, n, hv, h1, h2⟩ := ih r
      refine ⟨w ++ v, e + n, .cons hp hv, ?_, ?_⟩
      · simp only [h1, List.replicate_append_replicate]
      · rw [List.append_assoc]; exact congrArg (w ++ ·) h2

theorem lexQuotedBody_complete {s w : Str} {e : Nat} (h : Pieces s w e) (r : Str) (fuel : Nat) (hf : w.length ≤ fuel) :
    lexQuotedBody fuel (w ++ '`' :: r) = (s, List.replicate e .invalidUnicode, '`' :: r) := by
  induction h generalizing fuel with
  | nil =>
    cases fuel with
    | zero => rfl
    | succ fuel => rfl
  | cons hp h ih =>
    rename_i c w e s v n
    have := List.length_pos_iff.mpr (piece_ne hp)
    rw [List.length_append] at hf
    cases fuel with
    | zero => omega
    | succ fuel =>
      rw [lexQuotedBody, List.append_assoc, lexQuotedChar_complete hp]
      simp only [ih fuel (by omega), List.replicate_append_replicate]

theorem lexQuotedIdent_iff (cs : Str) (t : Token) (errs : List LexError) (r : Str) :
    lexQuotedIdent cs = some (t, errs, r) ↔
      ∃ s w e, t = .ident s ∧ Pieces s w e ∧ errs = List.replicate e .invalidUnicode ∧ cs = '`' :: (w ++ '`' :: r) := by
  constructor
  · intro h
    unfold lexQuotedIdent at h
    split at h
    · rename_i cs
      obtain ⟨w, e, h1, h2, h3⟩ := lexQuotedBody_sound cs.length cs
      split at h
      · rename_i s errs' r' hb
        simp only [Option.some.injEq, Prod.mk.injEq] at h
        obtain ⟨rfl, rfl, rfl⟩ := h
        rw [hb] at h1 h2 h3
        exact ⟨s, w, e, rfl, h1, h2, congrArg _ h3⟩
      · cases h
    · cases h
  · rintro ⟨s, w, e, rfl, hp, rfl, rfl⟩
    simp only [lexQuotedIdent]
    rw [lexQuotedBody_complete hp r _ (by simp)]
    rfl

/-! ## One token -/

theorem not_wordStart_of {c : Char} (h : isIdentStart c = false) : ¬ WordStart c := by
  rw [← isIdentStart_iff, h]; simp

theorem keyword_isWord {s : Str} {t : Token} (h : (s, t) ∈ keywords) : IsWord s := by
  have key : ∀ c cs, isIdentStart c = true → cs.all isIdentContinue = true → IsWord (c :: cs) := by
    intro c cs h1 h2
    exact ⟨c, cs, rfl, (isIdentStart_iff c).mp h1, fun d hd => (isIdentContinue_iff d).mp (List.all_eq_true.mp h2 d hd)⟩
  simp only [keywords, List.mem_cons, Prod.mk.injEq, List.not_mem_nil, or_false] at h
  rcases h with ⟨rfl, -⟩ | ⟨rfl, -⟩ | ⟨rfl, -⟩ | ⟨rfl, -⟩ | ⟨rfl, -⟩ | ⟨rfl, -⟩ | ⟨rfl, -⟩ <;> exact key _ _ (by decide) (by decide)

theorem keyword_unique {s : Str} {t t' : Token} (h : (s, t) ∈ keywords) (h' : (s, t') ∈ keywords) : t = t' := by
  simp only [keywords, List.mem_cons, Prod.mk.injEq, List.not_mem_nil, or_false] at h h'
  rcases h with ⟨rfl, rfl⟩ | ⟨rfl, rfl⟩ | ⟨rfl, rfl⟩ | ⟨rfl, rfl⟩ | ⟨rfl, rfl⟩ | ⟨rfl, rfl⟩ | ⟨rfl, rfl⟩ <;> (simp at h'; exact h'.symm)

/-- A word that is not read as the first character of an edge. -/
theorem not_edge_of_word {s r : Str} (hw : IsWord s) (he : ¬ (s = c!"o" ∧ c!"--o" <+: r)) :
    lexEdge (s ++ r) = none := by
  cases h : lexEdge (s ++ r) with
  | none => rfl
  | some x =>
    exfalso
    simp only [lexEdge, Option.map_eq_some_iff] at h
    obtain ⟨r', h, -⟩ := h
    rw [lexJust_iff] at h
    obtain ⟨c, cs, rfl, hc, hcs⟩ := hw
    simp only [List.cons_append, List.nil_append, List.cons.injEq] at h
    obtain ⟨rfl, h⟩ := h
    cases cs with
    | nil =>
      refine he ⟨rfl, r', ?_⟩
      simpa using h.symm
    | cons d cs =>
      simp only [List.cons_append, List.cons.injEq] at h
      have := hcs d (by simp)
      rw [h.1, ← isIdentContinue_iff] at this
      exact absurd this (by decide)

theorem lexToken_word {s r : Str} (hw : IsWord s) (hr : ∀ c ∈ r.head?, ¬ WordChar c) (he : ¬ (s = c!"o" ∧ c!"--o" <+: r)) :
    lexToken (s ++ r) = match lexKeyword (s ++ r) with
      | some (t, r') => some (t, [], r')
      | none => some (.ident s, [], r) := by
  have hi := (lexIdentStr_iff (s ++ r) s r).mpr ⟨rfl, hw, hr⟩
  unfold lexToken
  rw [not_edge_of_word hw he]
  cases hk : lexKeyword (s ++ r) with
  | some x => rfl
  | none => simp [noErr, lexIdent, hi]

theorem lexToken_nonword {c : Char} (hc : isIdentStart c = false) (cs : Str) :
    lexToken (c :: cs) = (lexQuotedIdent (c :: cs) <|> noErr (lexCtrl (c :: cs)) <|> noErr (lexNewline (c :: cs))) := by
  have h1 : lexIdentStr (c :: cs) = none := by simp [lexIdentStr, hc]
  have h2 : lexKeyword (c :: cs) = none := by simp [lexKeyword, lexKeywordStr, h1]
  have h3 : lexEdge (c :: cs) = none := by
    have : 'o' ≠ c := by rintro rfl; revert hc; decide
    simp [lexEdge, lexJust, this]
  unfold lexToken
  rw [h2, h3, lexIdent, h1]
  simp [noErr]

theorem lexCtrl_iff (cs : Str) (t : Token) (r : Str) : lexCtrl cs = some (t, r) ↔ ∃ c, c ∈ c!"{};." ∧ t = .ctrl c ∧ cs = c :: r := by
  cases cs with
  | nil => simp [lexCtrl]
  | cons c cs =>
    simp only [lexCtrl]
    constructor
    · intro h
      split_ifs at h with hc
      simp only [Option.some.injEq, Prod.mk.injEq] at h
      obtain ⟨rfl, rfl⟩ := h
      exact ⟨c, by simpa using hc, rfl, rfl⟩
    · rintro ⟨d, hd, rfl, h⟩
      simp only [List.cons.injEq] at h
      obtain ⟨rfl, rfl⟩ := h
      rw [if_pos (by simpa using hd)]

theorem lexNewline_iff (cs : Str) (t : Token) (r : Str) : lexNewline cs = some (t, r) ↔ t = .newline ∧ (cs = '\n' :: r ∨ cs = '\r' :: '\n' :: r) := by
  constructor
  · intro h
    unfold lexNewline at h
    split at h
    · simp only [Option.some.injEq, Prod.mk.injEq] at h
      obtain ⟨rfl, rfl⟩ := h
      exact ⟨rfl, Or.inl rfl⟩
    · simp only [Option.some.injEq, Prod.mk.injEq] at h
      obtain ⟨rfl, rfl⟩ := h
      exact ⟨rfl, Or.inr rfl⟩
    · cases h
  · rintro ⟨rfl, rfl | rfl⟩ <;> rfl

theorem quoted_not_word {w : Str} : ¬ IsWord ('`' :: w) := by
  rintro ⟨c, cs, h, hc, -⟩
  simp only [List.cons.injEq] at h
  obtain ⟨rfl, -⟩ := h
  exact not_wordStart_of (by decide) hc

theorem not_word_of {c : Char} (hc : isIdentStart c = false) (w : Str) : ¬ IsWord (c :: w) := by
  rintro ⟨d, cs, h, hd, -⟩
  simp only [List.cons.injEq] at h
  obtain ⟨rfl, -⟩ := h
  exact not_wordStart_of hc hd

/-- `lexToken` reads exactly what the specification allows. -/
theorem lexToken_iff (cs : Str) (t : Token) (errs : List LexError) (r : Str) :
    lexToken cs = some (t, errs, r) ↔ ∃ w e, cs = w ++ r ∧ Reads t w e r ∧ errs = List.replicate e .invalidUnicode := by
  constructor
  · intro h
    cases cs with
    | nil => simp [lexToken, lexEdge, lexJust, lexKeyword, lexKeywordStr, lexIdent, lexIdentStr, lexQuotedIdent, lexCtrl, lexNewline, noErr] at h
    | cons c cs =>
      cases hc : isIdentStart c with
      | true =>
        cases hE : lexEdge (c :: cs) with
        | some x =>
          simp only [lexEdge, Option.map_eq_some_iff] at hE
          obtain ⟨r', h1, rfl⟩ := hE
          have h2 : lexToken (c :: cs) = some (.edge, [], r') := by
            unfold lexToken lexEdge; rw [h1]; rfl
          rw [h2] at h
          simp only [Option.some.injEq, Prod.mk.injEq] at h
          obtain ⟨rfl, rfl, rfl⟩ := h
          rw [lexJust_iff] at h1
          refine ⟨c!"o--o", 0, h1, ⟨.edge, ?_⟩, rfl⟩
          rintro ⟨d, ds, h3, -, h4⟩
          simp only [List.cons.injEq] at h3
          obtain ⟨-, rfl⟩ := h3
          have := h4 '-' (by simp)
          rw [← isIdentContinue_iff] at this
          exact absurd this (by decide)
        | none =>
          obtain ⟨⟨s, r'⟩, hs⟩ : ∃ x, lexIdentStr (c :: cs) = some x := by simp [lexIdentStr, hc]
          obtain ⟨e1, hw, hr⟩ := (lexIdentStr_iff _ _ _).mp hs
          have he : ¬ (s = c!"o" ∧ c!"--o" <+: r') := by
            rintro ⟨rfl, z, rfl⟩
            rw [e1] at hE
            simp [lexEdge, lexJust] at hE
          rw [e1, lexToken_word hw hr he] at h
          cases hk : lexKeyword (s ++ r') with
          | some x =>
            obtain ⟨t', r''⟩ := x
            rw [hk] at h
            simp only [Option.some.injEq, Prod.mk.injEq] at h
            obtain ⟨rfl, rfl, rfl⟩ := h
            obtain ⟨s', h1, h2⟩ := (lexKeyword_iff _ _ _).mp hk
            rw [← e1, hs] at h1
            simp only [Option.some.injEq, Prod.mk.injEq] at h1
            obtain ⟨rfl, rfl⟩ := h1
            exact ⟨s, 0, e1, ⟨.keyword h2, fun _ => ⟨hr, he⟩⟩, rfl⟩
          | none =>
            rw [hk] at h
            simp only [Option.some.injEq, Prod.mk.injEq] at h
            obtain ⟨rfl, rfl, rfl⟩ := h
            refine ⟨s, 0, e1, ⟨.word hw ?_, fun _ => ⟨hr, he⟩⟩, rfl⟩
            intro t ht
            have := (lexKeyword_iff (s ++ r') r' t).mpr ⟨s, e1 ▸ hs, ht⟩
            rw [hk] at this; cases this
      | false =>
        rw [lexToken_nonword hc] at h
        cases hq : lexQuotedIdent (c :: cs) with
        | some x =>
          rw [hq] at h
          simp only [Option.orElse_eq_orElse, Option.orElse_eq_or, Option.some_or, Option.some.injEq] at h
          subst h
          obtain ⟨s, w, e, rfl, hp, rfl, h1⟩ := (lexQuotedIdent_iff _ _ _ _).mp hq
          refine ⟨'`' :: (w ++ ['`']), e, by rw [h1]; simp, ⟨.quoted hp, fun h => absurd h quoted_not_word⟩, rfl⟩
        | none =>
          rw [hq] at h
          cases hk : lexCtrl (c :: cs) with
          | some x =>
            obtain ⟨t', r'⟩ := x
            rw [hk] at h
            simp only [noErr, Option.map_some, Option.orElse_eq_orElse, Option.orElse_eq_or, Option.none_or, Option.some_or, Option.some.injEq, Prod.mk.injEq] at h
            obtain ⟨rfl, rfl, rfl⟩ := h
            obtain ⟨d, hd, rfl, h1⟩ := (lexCtrl_iff _ _ _).mp hk
            simp only [List.cons.injEq] at h1
            obtain ⟨rfl, rfl⟩ := h1
            exact ⟨[c], 0, rfl, ⟨.ctrl hd, fun h => absurd h (not_word_of hc _)⟩, rfl⟩
          | none =>
            rw [hk] at h
            cases hn : lexNewline (c :: cs) with
            | none => rw [hn] at h; simp [noErr] at h
            | some x =>
              obtain ⟨t', r'⟩ := x
              rw [hn] at h
              simp only [noErr, Option.map_some, Option.map_none, Option.orElse_eq_orElse, Option.orElse_eq_or, Option.none_or, Option.some.injEq, Prod.mk.injEq] at h
              obtain ⟨rfl, rfl, rfl⟩ := h
              obtain ⟨rfl, h1 | h1⟩ := (lexNewline_iff _ _ _).mp hn
              · exact ⟨c!"\n", 0, h1, ⟨.newline, fun h => absurd h (not_word_of (by decide) _)⟩, rfl⟩
              · exact ⟨c!"\r\n", 0, h1, ⟨.crlf, fun h => absurd h (not_word_of (by decide) _)⟩, rfl⟩
  · rintro ⟨w, e, rfl, ⟨hl, hb⟩, rfl⟩
    cases hl with
    | edge => simp [lexToken, lexEdge, lexJust, noErr]
    | keyword h =>
      have hw := keyword_isWord h
      obtain ⟨hr, he⟩ := hb hw
      rw [lexToken_word hw hr he, (lexKeyword_iff _ _ _).mpr ⟨w, (lexIdentStr_iff _ _ _).mpr ⟨rfl, hw, hr⟩, h⟩]
      rfl
    | word hw hk =>
      obtain ⟨hr, he⟩ := hb hw
      rw [lexToken_word hw hr he]
      cases h : lexKeyword (w ++ r) with
      | none => rfl
      | some x =>
        obtain ⟨t', r'⟩ := x
        obtain ⟨s', h1, h2⟩ := (lexKeyword_iff _ _ _).mp h
        rw [(lexIdentStr_iff _ _ _).mpr ⟨rfl, hw, hr⟩] at h1
        simp only [Option.some.injEq, Prod.mk.injEq] at h1
        obtain ⟨rfl, rfl⟩ := h1
        exact absurd h2 (hk t')
    | quoted hp =>
      rename_i s v
      rw [List.cons_append, lexToken_nonword (by decide),
        (lexQuotedIdent_iff _ (.ident s) (List.replicate e .invalidUnicode) r).mpr ⟨s, v, e, rfl, hp, rfl, by simp⟩]
      rfl
    | ctrl hc =>
      rename_i c
      simp only [List.mem_cons, List.not_mem_nil, or_false] at hc
      rcases hc with rfl | rfl | rfl | rfl <;> rfl
    | newline => rfl
    | crlf => rfl

theorem lexToken_none_iff (cs : Str) : lexToken cs = none ↔ Unreadable cs := by
  constructor
  · intro h t w e r hcs hr
    have := (lexToken_iff cs t _ r).mpr ⟨w, e, hcs, hr, rfl⟩
    rw [h] at this; cases this
  · intro h
    cases hl : lexToken cs with
    | none => rfl
    | some x =>
      obtain ⟨t, errs, r⟩ := x
      obtain ⟨w, e, h1, h2, -⟩ := (lexToken_iff _ _ _ _).mp hl
      exact absurd h2 (h t w e r h1)

/-! ## Gaps -/

/-- What is left behind the longest gap. -/
def strip (cs : Str) : Str :=
  match skipSpaces cs with
  | '/' :: '/' :: r => r.dropWhile fun c => c != '\n'
  | r => r

theorem blank_iff (c : Char) : (c == ' ' || c == '\t') = true ↔ Blank c := by simp [Blank]

theorem skipSpaces_run {g : Str} (hg : ∀ c ∈ g, Blank c) (r : Str) : skipSpaces (g ++ r) = skipSpaces r := by
  induction g with
  | nil => rfl
  | cons c g ih =>
    have := (blank_iff c).mpr (hg c (by simp))
    rw [skipSpaces, List.cons_append, List.dropWhile_cons, if_pos this]
    exact ih fun c hc => hg c (by simp [hc])

theorem skipSpaces_stop {r : Str} (hr : ∀ c ∈ r.head?, ¬ Blank c) : skipSpaces r = r := by
  cases r with
  | nil => rfl
  | cons c r =>
    have := hr c (by simp)
    rw [← blank_iff] at this
    rw [skipSpaces, List.dropWhile_cons, if_neg this]

theorem skipSpaces_head (cs : Str) : ∀ c ∈ (skipSpaces cs).head?, ¬ Blank c := by
  intro c hc
  rw [← blank_iff, dropWhile_head? _ _ c hc]; simp

theorem skipSpaces_split (cs : Str) : ∃ g, (∀ c ∈ g, Blank c) ∧ cs = g ++ skipSpaces cs :=
  ⟨cs.takeWhile fun c => c == ' ' || c == '\t', fun c hc => (blank_iff c).mp (takeWhile_all _ _ c hc),
    (List.takeWhile_append_dropWhile).symm⟩

theorem tight_line {r : Str} (hr : ∀ c ∈ r.head?, c = '\n') : Tight r := by
  constructor
  · intro c hc
    rw [hr c hc]
    simp [Blank]
  · rintro ⟨z, rfl⟩
    have := hr '/' (by simp)
    simp at this

theorem line_end (r : Str) : ∀ c ∈ (r.dropWhile fun c => c != '\n').head?, c = '\n' := by
  intro c hc
  have := dropWhile_head? _ _ c hc
  simpa using this

theorem strip_tight {r : Str} (h : Tight r) : strip r = r := by
  unfold strip
  rw [skipSpaces_stop h.1]
  split
  · rename_i x
    exact absurd ⟨x, rfl⟩ h.2
  · rfl

theorem strip_spec (cs : Str) : ∃ g, cs = g ++ strip cs ∧ Gap g (strip cs) ∧ Tight (strip cs) := by
  obtain ⟨g, hg, e⟩ := skipSpaces_split cs
  unfold strip
  split
  · rename_i r hr
    rw [hr] at e
    refine ⟨g ++ ('/' :: '/' :: r.takeWhile fun c => c != '\n'), ?_, .comment hg ?_ (line_end r), tight_line (line_end r)⟩
    · rw [List.append_assoc, List.cons_append, List.cons_append, List.takeWhile_append_dropWhile]; exact e
    · intro hm
      have := takeWhile_all _ _ _ hm
      simp at this
  · rename_i hr
    refine ⟨g, e, .blanks hg, skipSpaces_head cs, ?_⟩
    rintro ⟨z, hz⟩
    exact hr z hz.symm

theorem gap_strip {g r : Str} (hg : Gap g r) (hr : Tight r) : strip (g ++ r) = r := by
  cases hg with
  | blanks h =>
    have : strip (g ++ r) = strip r := by unfold strip; rw [skipSpaces_run h]
    rw [this, strip_tight hr]
  | comment h hx hr' =>
    rename_i g x
    have : skipSpaces (g ++ ('/' :: '/' :: x) ++ r) = '/' :: '/' :: (x ++ r) := by
      rw [List.append_assoc, skipSpaces_run h, List.cons_append, List.cons_append, skipSpaces_stop]
      simp [Blank]
    unfold strip
    rw [this]
    refine (takeWhile_append _ x r ?_ ?_).2
    · intro c hc
      have : c ≠ '\n' := by rintro rfl; exact hx hc
      simpa using this
    · intro c hc
      rw [hr' c hc]; simp

theorem strip_strip (cs : Str) : strip (strip cs) = strip cs := strip_tight (strip_spec cs).choose_spec.2.2

theorem lexComment_eq (cs : Str) : lexComment cs = match skipSpaces cs with
    | '/' :: '/' :: r => some (r.dropWhile fun c => c != '\n')
    | _ => none := by
  unfold lexComment
  split
  · rename_i r hr
    simp only [hr, skipSpaces_stop (tight_line (line_end r)).1]
  · rename_i hr
    split
    · rename_i r hr'; exact absurd hr' (hr r)
    · rfl

theorem skipComments_tight {r : Str} (h : Tight r) (n : Nat) : skipComments n r = r := by
  cases n with
  | zero => rfl
  | succ n =>
    rw [skipComments, lexComment_eq, skipSpaces_stop h.1]
    split
    · rfl
    · rename_i h'
      split at h'
      · rename_i x
        exact absurd ⟨x, rfl⟩ h.2
      · cases h'

theorem skipAfter_eq (cs : Str) : skipAfter cs = strip cs := by
  unfold skipAfter
  cases hl : cs.length with
  | zero =>
    have : cs = [] := List.length_eq_zero_iff.mp hl
    subst this; rfl
  | succ n =>
    rw [skipComments, lexComment_eq]
    unfold strip
    split
    · rename_i h
      split at h
      · cases h
      · rfl
    · rename_i rest h
      split at h
      · rename_i r hr
        simp only [Option.some.injEq] at h
        subst h
        simp only [skipComments_tight (tight_line (line_end r)), skipSpaces_stop (tight_line (line_end r)).1]
      · cases h

theorem skipSpaces_skipSpaces (cs : Str) : skipSpaces (skipSpaces cs) = skipSpaces cs := skipSpaces_stop (skipSpaces_head cs)

theorem strip_skipSpaces (cs : Str) : strip (skipSpaces cs) = strip cs := by
  unfold strip
  rw [skipSpaces_skipSpaces]

theorem skipBefore_eq (cs : Str) : skipBefore cs = strip cs := by
  have h := skipAfter_eq (skipSpaces cs)
  rw [strip_skipSpaces] at h
  rw [← h]
  unfold skipBefore skipAfter
  simp only
  cases hl : (skipSpaces cs).length with
  | zero =>
    have : skipSpaces cs = [] := List.length_eq_zero_iff.mp hl
    rw [this]; rfl
  | succ n =>
    rw [skipComments]
    cases hc : lexComment (skipSpaces cs) with
    | none => simp only [skipSpaces_skipSpaces]
    | some r =>
      rw [lexComment_eq] at hc
      split at hc
      · rename_i r' hr
        simp only [Option.some.injEq] at hc
        subst hc
        simp only [skipComments_tight (tight_line (line_end r')), skipSpaces_stop (tight_line (line_end r')).1]
      · cases hc

/-! ## Recovery -/

theorem lexRecover_some {cs : Str} {t : Token} {errs : List LexError} {r : Str} (h : lexRecover cs = some (t, errs, r)) (h0 : lexToken cs = none) :
    ∃ x v, cs = x ++ v ∧ x ≠ [] ∧ lexToken v = some (t, errs, r) ∧ ∀ y, y <:+ x → y ≠ [] → lexToken (y ++ v) = none := by
  induction cs with
  | nil => cases h
  | cons c cs ih =>
    rw [lexRecover] at h
    cases hl : lexToken cs with
    | some z =>
      rw [hl] at h
      simp only [Option.some.injEq] at h
      subst h
      refine ⟨[c], cs, rfl, by simp, hl, ?_⟩
      intro y hy hne
      rcases List.suffix_cons_iff.mp hy with rfl | hy
      · exact h0
      · exact absurd (List.suffix_nil.mp hy) hne
    | none =>
      rw [hl] at h
      obtain ⟨x, v, rfl, hx, h1, h2⟩ := ih h hl
      refine ⟨c :: x, v, rfl, by simp, h1, ?_⟩
      intro y hy hne
      rcases List.suffix_cons_iff.mp hy with rfl | hy
      · exact h0
      · exact h2 y hy hne

theorem lexRecover_complete {x v : Str} {z : Token × List LexError × List Char} (hx : x ≠ []) (hv : lexToken v = some z)
    (hy : ∀ y, y <:+ x → y ≠ [] → lexToken (y ++ v) = none) : lexRecover (x ++ v) = some z := by
  induction x with
  | nil => exact absurd rfl hx
  | cons c x ih =>
    rw [List.cons_append, lexRecover]
    cases x with
    | nil => rw [List.nil_append, hv]
    | cons d x =>
      rw [hy (d :: x) (List.suffix_cons _ _) (by simp)]
      exact ih (by simp) fun y h => hy y (h.trans (List.suffix_cons _ _))

theorem lexRecover_none {cs : Str} (h : lexRecover cs = none) (h0 : lexToken cs = none) : ∀ s, s <:+ cs → lexToken s = none := by
  induction cs with
  | nil =>
    intro s hs
    rw [List.suffix_nil.mp hs]; exact h0
  | cons c cs ih =>
    rw [lexRecover] at h
    intro s hs
    cases hl : lexToken cs with
    | some z => rw [hl] at h; cases h
    | none =>
      rw [hl] at h
      rcases List.suffix_cons_iff.mp hs with rfl | hs
      · exact h0
      · exact ih h hl s hs

theorem lexRecover_all {cs : Str} (h : ∀ s, s <:+ cs → lexToken s = none) : lexRecover cs = none := by
  induction cs with
  | nil => rfl
  | cons c cs ih =>
    rw [lexRecover, h cs (List.suffix_cons _ _)]
    exact ih fun s hs => h s (hs.trans (List.suffix_cons _ _))

/-! ## The whole source -/

theorem lexeme_ne {t : Token} {w : Str} {e : Nat} (h : Lexeme t w e) : w ≠ [] := by
  cases h with
  | keyword h =>
    obtain ⟨c, cs, rfl, -⟩ := keyword_isWord h
    simp
  | word h =>
    obtain ⟨c, cs, rfl, -⟩ := h
    simp
  | _ => simp

theorem lexeme_tight {t : Token} {w : Str} {e : Nat} (h : Lexeme t w e) (r : Str) : Tight (w ++ r) := by
  have key : ∀ c cs, w = c :: cs → ¬ Blank c → c ≠ '/' → Tight (w ++ r) := by
    rintro c cs rfl h1 h2
    constructor
    · intro d hd
      simp only [List.cons_append, List.head?_cons, Option.mem_def, Option.some.injEq] at hd
      exact hd ▸ h1
    · rintro ⟨z, hz⟩
      simp only [List.cons_append, List.cons.injEq] at hz
      exact h2 hz.1.symm
  have word : IsWord w → Tight (w ++ r) := by
    rintro ⟨c, cs, rfl, hc, -⟩
    refine key c cs rfl ?_ ?_
    · rintro (rfl | rfl) <;> exact not_wordStart_of (by decide) hc
    · rintro rfl; exact not_wordStart_of (by decide) hc
  cases h with
  | edge => exact key _ _ rfl (by simp [Blank]) (by simp)
  | keyword h => exact word (keyword_isWord h)
  | word h => exact word h
  | quoted h => exact key _ _ rfl (by simp [Blank]) (by simp)
  | ctrl h =>
    simp only [List.mem_cons, List.not_mem_nil, or_false] at h
    rcases h with rfl | rfl | rfl | rfl <;> exact key _ _ rfl (by simp [Blank]) (by simp)
  | newline => exact key _ _ rfl (by simp [Blank]) (by simp)
  | crlf => exact key _ _ rfl (by simp [Blank]) (by simp)

theorem lexStep_strip (total : Nat) (cs : Str) : lexStep total (strip cs) = lexStep total cs := by
  unfold lexStep
  simp only [skipBefore_eq, strip_strip]

theorem lexLoop_strip (total fuel : Nat) (cs : Str) : lexLoop total fuel (strip cs) = lexLoop total fuel cs := by
  cases fuel with
  | zero => rfl
  | succ fuel => rw [lexLoop, lexLoop, lexStep_strip]

theorem lexLoop_scan (fuel pos : Nat) (cs : Str) (hf : cs.length ≤ fuel) :
    Scan pos cs (lexLoop (pos + cs.length) fuel cs).1 (lexLoop (pos + cs.length) fuel cs).2 := by
  induction fuel generalizing pos cs with
  | zero =>
    have : cs = [] := List.length_eq_zero_iff.mp (by omega)
    subst this
    refine Scan.stop (g := []) (r := []) (.blanks (by simp)) ⟨by simp, by simp⟩ ?_
    intro s hs
    rw [List.suffix_nil.mp hs, ← lexToken_none_iff]
    rfl
  | succ fuel ih =>
    obtain ⟨g, e, hg, ht⟩ := strip_spec cs
    have hlen : cs.length = g.length + (strip cs).length := by conv_lhs => rw [e, List.length_append]
    rw [lexLoop]
    cases hs : lexStep (pos + cs.length) cs with
    | none =>
      simp only
      unfold lexStep at hs
      simp only [skipBefore_eq] at hs
      split at hs
      · cases hs
      · rename_i h0
        split at hs
        · cases hs
        · rename_i h1
          conv => arg 2; rw [e]
          exact .stop hg ht fun s hs => (lexToken_none_iff s).mp (lexRecover_none h1 h0 s hs)
    | some x =>
      obtain ⟨⟨t, sp⟩, errs, rest⟩ := x
      unfold lexStep at hs
      simp only [skipBefore_eq, skipAfter_eq] at hs
      split at hs
      · rename_i t' errs' rest' h0
        simp only [Option.some.injEq, Prod.mk.injEq] at hs
        obtain ⟨⟨rfl, rfl⟩, rfl, rfl⟩ := hs
        obtain ⟨w, n, e2, hw, rfl⟩ := (lexToken_iff _ _ _ _).mp h0
        have hl2 : (strip cs).length = w.length + rest'.length := by rw [e2, List.length_append]
        have := List.length_pos_iff.mpr (lexeme_ne hw.1)
        have hsc := ih (pos + g.length + w.length) rest' (by omega)
        simp only [lexLoop_strip]
        have e3 : pos + cs.length = pos + g.length + w.length + rest'.length := by omega
        rw [← e3] at hsc
        have res := Scan.token (pos := pos) (g := g) (e2 ▸ hg) hw hsc
        rw [← e2, ← e] at res
        convert res using 4
        · omega
        · omega
      · rename_i h0
        split at hs
        · rename_i t' errs' rest' h1
          simp only [Option.some.injEq, Prod.mk.injEq] at hs
          obtain ⟨⟨rfl, rfl⟩, rfl, rfl⟩ := hs
          obtain ⟨x, v, e2, hx, hv, hu⟩ := lexRecover_some h1 h0
          obtain ⟨w, n, rfl, hw, rfl⟩ := (lexToken_iff _ _ _ _).mp hv
          have hl2 : (strip cs).length = x.length + (w.length + rest'.length) := by rw [e2, List.length_append, List.length_append]
          have := List.length_pos_iff.mpr (lexeme_ne hw.1)
          have hsc := ih (pos + g.length + x.length + w.length) rest' (by omega)
          simp only [lexLoop_strip]
          have e3 : pos + cs.length = pos + g.length + x.length + w.length + rest'.length := by omega
          rw [← e3] at hsc
          have res := Scan.skip (pos := pos) (g := g) (e2 ▸ hg) (e2 ▸ ht) hx (fun y h1 h2 => (lexToken_none_iff _).mp (hu y h1 h2)) hw hsc
          rw [← e2, ← e] at res
          convert res using 4
          · omega
          · omega
          · rw [List.cons_append]
            congr 2
            omega
        · cases hs

theorem scan_lexLoop {pos : Nat} {cs : Str} {ts : List (Token × Span)} {errs : List LexError} (h : Scan pos cs ts errs) :
    ∀ fuel, cs.length ≤ fuel → lexLoop (pos + cs.length) fuel cs = (ts, errs) := by
  induction h with
  | stop hg ht hr =>
    rename_i pos g r
    intro fuel hf
    cases fuel with
    | zero => rfl
    | succ fuel =>
      have hn : ∀ s, s <:+ r → lexToken s = none := fun s hs => (lexToken_none_iff s).mpr (hr s hs)
      rw [lexLoop]
      have : lexStep (pos + (g ++ r).length) (g ++ r) = none := by
        unfold lexStep
        simp only [skipBefore_eq, gap_strip hg ht, hn r (List.suffix_refl r), lexRecover_all hn]
      rw [this]
  | token hg hw h ih =>
    rename_i pos g w r t e ts errs
    intro fuel hf
    have := List.length_pos_iff.mpr (lexeme_ne hw.1)
    simp only [List.length_append] at hf
    cases fuel with
    | zero => omega
    | succ fuel =>
      rw [lexLoop]
      have hs : lexStep (pos + (g ++ (w ++ r)).length) (g ++ (w ++ r)) =
          some ((t, ⟨pos + g.length, pos + g.length + w.length⟩), List.replicate e .invalidUnicode, strip r) := by
        unfold lexStep
        simp only [skipBefore_eq, skipAfter_eq, gap_strip hg (lexeme_tight hw.1 r), (lexToken_iff _ _ _ _).mpr ⟨w, e, rfl, hw, rfl⟩]
        simp only [List.length_append]
        congr 4 <;> omega
      rw [hs]
      simp only [lexLoop_strip]
      have e3 : pos + (g ++ (w ++ r)).length = pos + g.length + w.length + r.length := by
        simp only [List.length_append]; omega
      rw [e3, ih fuel (by omega)]
  | skip hg ht hx hu hw h ih =>
    rename_i pos g x w r t e ts errs
    intro fuel hf
    have := List.length_pos_iff.mpr (lexeme_ne hw.1)
    simp only [List.length_append] at hf
    cases fuel with
    | zero => omega
    | succ fuel =>
      rw [lexLoop]
      have hn : ∀ y, y <:+ x → y ≠ [] → lexToken (y ++ (w ++ r)) = none := fun y h1 h2 => (lexToken_none_iff _).mpr (hu y h1 h2)
      have hv := (lexToken_iff (w ++ r) _ _ _).mpr ⟨w, e, rfl, hw, rfl⟩
      have hs : lexStep (pos + (g ++ (x ++ (w ++ r))).length) (g ++ (x ++ (w ++ r))) =
          some ((t, ⟨pos + g.length, pos + g.length + x.length + w.length⟩), .unexpected (pos + g.length) :: List.replicate e .invalidUnicode,
            strip r) := by
        unfold lexStep
        simp only [skipBefore_eq, skipAfter_eq, gap_strip hg ht, hn x (List.suffix_refl x) hx, lexRecover_complete hx hv hn]
        have e1 : pos + (g ++ (x ++ (w ++ r))).length - (x ++ (w ++ r)).length = pos + g.length := by
          simp only [List.length_append]; omega
        have e2 : pos + (g ++ (x ++ (w ++ r))).length - r.length = pos + g.length + x.length + w.length := by
          simp only [List.length_append]; omega
        rw [e1, e2]
      rw [hs]
      simp only [lexLoop_strip]
      have e3 : pos + (g ++ (x ++ (w ++ r))).length = pos + g.length + x.length + w.length + r.length := by
        simp only [List.length_append]; omega
      rw [e3, ih fuel (by omega)]
      rfl

/-- The tokenizer returns exactly what the specification demands. -/
theorem tokenize_exact (src : Str) (ts : List (Token × Span)) (errs : List LexError) :
    tokenize src = (some ts, errs) ↔ Scan 0 src ts errs := by
  have e : tokenize src = (some (lexLoop src.length src.length src).1, (lexLoop src.length src.length src).2) := rfl
  rw [e]
  constructor
  · intro h
    simp only [Prod.mk.injEq, Option.some.injEq] at h
    have := lexLoop_scan src.length 0 src (le_refl _)
    rw [Nat.zero_add] at this
    rw [← h.1, ← h.2]
    exact this
  · intro h
    have := scan_lexLoop h src.length (le_refl _)
    rw [Nat.zero_add] at this
    rw [this]

theorem tokenize_scan (src : Str) : ∃ ts errs, tokenize src = (some ts, errs) ∧ Scan 0 src ts errs :=
  ⟨_, _, rfl, (tokenize_exact src _ _).mp rfl⟩

end Seiren
