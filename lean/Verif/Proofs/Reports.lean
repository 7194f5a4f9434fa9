import Verif.Proofs.Lexer
import Verif.Spec.Reports
/-! # The errors of the tokenizer, in terms of the specification -/

namespace Seiren
open Spec

theorem CharError.max_left {a b : CharError} (h : a.left < b.left) : a.max b = a := by simp [CharError.max, h]

theorem CharError.max_right {a b : CharError} (h : b.left < a.left) : a.max b = b := by
  simp [CharError.max, h, Nat.lt_asymm h]

theorem CharError.max_same (n : Nat) (x y : List Char) : (CharError.mk n x).max ⟨n, y⟩ = ⟨n, x ++ y⟩ := by simp [CharError.max]

theorem CharError.max_succ (n : Nat) (x y : List Char) : (CharError.mk (n + 1) x).max ⟨n, y⟩ = ⟨n, y⟩ := max_right (by simp)

theorem justError_ne {p c : Char} (ps cs : Str) (h : p ≠ c) : justError (p :: ps) (c :: cs) = ⟨cs.length + 1, [p]⟩ := by
  simp [justError, h]

theorem lexToken_none {cs : Str} (h : lexToken cs = none) :
    lexIdent cs = none ∧ lexQuotedIdent cs = none ∧ lexCtrl cs = none ∧ lexNewline cs = none := by
  unfold lexToken noErr at h
  cases h1 : lexEdge cs <;> cases h2 : lexKeyword cs <;> cases h3 : lexIdent cs <;> cases h4 : lexQuotedIdent cs <;>
    cases h5 : lexCtrl cs <;> cases h6 : lexNewline cs <;> simp [h1, h2, h3, h4, h5, h6] at h ⊢

/-- Fewer than `n` hexadecimal digits. -/
theorem digitsError_spec (n : Nat) (cs : Str) (h : ¬ ∃ h r, cs = h ++ r ∧ h.length = n ∧ ∀ d ∈ h, (hexVal d).isSome) :
    ∃ ds r, cs = ds ++ r ∧ ds.length < n ∧ (∀ d ∈ ds, (hexVal d).isSome) ∧ (∀ c ∈ r.head?, hexVal c = none) ∧
      digitsError n cs = ⟨r.length, []⟩ := by
  induction n generalizing cs with
  | zero => exact absurd ⟨[], cs, rfl, rfl, by simp⟩ h
  | succ n ih =>
    cases cs with
    | nil => exact ⟨[], [], rfl, by simp, by simp, by simp, rfl⟩
    | cons c cs =>
      cases hc : (hexVal c).isSome with
      | false => exact ⟨[], c :: cs, rfl, by simp, by simp, by simpa using hc, by simp [digitsError, hc, filterError]⟩
      | true =>
        obtain ⟨ds, r, rfl, h1, h2, h3, h4⟩ := ih cs (by
          rintro ⟨x, r, rfl, h1, h2⟩
          exact h ⟨c :: x, r, rfl, by simp [h1], by simpa [hc] using h2⟩)
        refine ⟨c :: ds, r, rfl, by simp [h1], by simpa [hc] using h2, h3, ?_⟩
        rw [digitsError, if_pos hc, h4]

theorem lexEscape_u {cs : Str} (h : lexEscape ('u' :: cs) = none) : ¬ ∃ x r, cs = x ++ r ∧ x.length = 4 ∧ ∀ d ∈ x, (hexVal d).isSome := by
  rintro ⟨x, r, rfl, h1, h2⟩
  match x, h1 with
  | [a, b, c, d], _ =>
    simp only [List.mem_cons, List.not_mem_nil, or_false, forall_eq_or_imp, forall_eq, Option.isSome_iff_exists] at h2
    obtain ⟨⟨i, hi⟩, ⟨j, hj⟩, ⟨k, hk⟩, ⟨l, hl⟩⟩ := h2
    simp [lexEscape, hi, hj, hk, hl] at h

theorem lexEscape_head {c : Char} {cs : Str} (h : lexEscape (c :: cs) = none) : c ∉ c!"\\/\"`bfnrt" := by
  intro hc
  simp only [List.mem_cons, List.not_mem_nil, or_false] at hc
  rcases hc with rfl | rfl | rfl | rfl | rfl | rfl | rfl | rfl | rfl <;> simp [lexEscape] at h

theorem hexVal_none {c : Char} (h : hexVal c = none) (v : Nat) : ¬ HexDigit c v := by
  intro hv
  rw [(hexVal_iff c v).mpr hv] at h
  cases h

theorem hexVal_some {c : Char} (h : (hexVal c).isSome) : ∃ v, HexDigit c v := by
  obtain ⟨v, hv⟩ := Option.isSome_iff_exists.mp h
  exact ⟨v, (hexVal_iff c v).mp hv⟩

/-- The error behind a backslash. -/
theorem escapeError_spec {cs : Str} (h : lexEscape cs = none) :
    ((∀ c ∈ cs.head?, ¬ EscapeChar c) ∧ escapeError cs = ⟨cs.length, c!"\\/\"`bfnrtu"⟩) ∨
    ∃ ds r, cs = 'u' :: (ds ++ r) ∧ ds.length < 4 ∧ (∀ d ∈ ds, ∃ v, HexDigit d v) ∧ (∀ c ∈ r.head?, ∀ v, ¬ HexDigit c v) ∧
      escapeError cs = ⟨r.length, []⟩ := by
  cases cs with
  | nil => exact .inl ⟨by simp, by decide⟩
  | cons c cs =>
    have hc := lexEscape_head h
    simp only [List.mem_cons, List.not_mem_nil, or_false, not_or] at hc
    obtain ⟨c1, c2, c3, c4, c5, c6, c7, c8, c9⟩ := hc
    by_cases hu : c = 'u'
    · subst hu
      obtain ⟨ds, r, rfl, h1, h2, h3, h4⟩ := digitsError_spec 4 cs (lexEscape_u h)
      refine .inr ⟨ds, r, rfl, h1, fun d hd => hexVal_some (h2 d hd), fun c hc => hexVal_none (h3 c hc), ?_⟩
      unfold escapeError
      simp only [justError_ne _ _ (Ne.symm c1), justError_ne _ _ (Ne.symm c2), justError_ne _ _ (Ne.symm c3), justError_ne _ _ (Ne.symm c4),
        justError_ne _ _ (Ne.symm c5), justError_ne _ _ (Ne.symm c6), justError_ne _ _ (Ne.symm c7), justError_ne _ _ (Ne.symm c8),
        justError_ne _ _ (Ne.symm c9), h4]
      have hm : ∀ x, (CharError.mk ((ds ++ r).length + 1) x).max ⟨r.length, []⟩ = ⟨r.length, []⟩ := fun x =>
        CharError.max_right (by rw [List.length_append]; simp only; omega)
      simp only [hm]
    · refine .inl ⟨?_, ?_⟩
      · intro d hd
        simp only [List.head?_cons, Option.mem_def, Option.some.injEq] at hd
        subst hd
        rintro (rfl | ⟨d, hd⟩)
        · exact hu rfl
        · simp only [escapes, List.mem_cons, Prod.mk.injEq, List.not_mem_nil, or_false] at hd
          grind
      · unfold escapeError
        simp only [justError_ne _ _ (Ne.symm c1), justError_ne _ _ (Ne.symm c2), justError_ne _ _ (Ne.symm c3), justError_ne _ _ (Ne.symm c4),
          justError_ne _ _ (Ne.symm c5), justError_ne _ _ (Ne.symm c6), justError_ne _ _ (Ne.symm c7), justError_ne _ _ (Ne.symm c8),
          justError_ne _ _ (Ne.symm c9)]
        split
        · rename_i heq; simp only [List.cons.injEq] at heq; exact absurd heq.1 hu
        · rw [justError_ne _ _ (Ne.symm hu)]
          simp only [CharError.max_same]
          rfl

/-- The error of a quoted identifier. -/
theorem quotedError_spec {cs : Str} (h : lexQuotedIdent ('`' :: cs) = none) :
    ∃ i ex, Fails ('`' :: cs) i ex ∧ 1 ≤ i ∧ i ≤ cs.length + 1 ∧ (quotedError ('`' :: cs)).left = cs.length + 1 - i ∧
      ∀ c, c ∈ (quotedError ('`' :: cs)).expected ↔ c ∈ ex := by
  obtain ⟨w, e, hp, -, hcs⟩ := lexQuotedBody_sound cs.length cs
  have hq := lexQuotedBody_fuel cs.length cs (le_refl _)
  rw [quotedError]
  simp only [lexQuotedIdent] at h
  generalize hb : lexQuotedBody cs.length cs = b at *
  obtain ⟨s, errs, rest⟩ := b
  simp only at hp hcs hq h ⊢
  subst hcs
  match rest, hq, h with
  | [], _, _ =>
    rw [List.append_nil]
    refine ⟨1 + w.length, _, .unclosed hp, by omega, by omega, ?_, ?_⟩
    · simp [justError, quotedCharError, filterError, CharError.max]; omega
    · simp [justError, quotedCharError, filterError, CharError.max]
  | d :: r, hq, h =>
    by_cases hd : d = '`'
    · subst hd; simp at h
    · by_cases hd' : d = '\\'
      · subst hd'
        have he : lexEscape r = none := by simpa [lexQuotedChar] using hq
        have hj : justError c!"`" ('\\' :: r) = ⟨r.length + 1, ['`']⟩ := justError_ne _ _ (by decide)
        rw [hj, quotedCharError]
        simp only [filterError, List.length_cons]
        rcases escapeError_spec he with ⟨h1, h2⟩ | ⟨ds, r', rfl, h1, h2, h3, h4⟩
        · refine ⟨2 + w.length, _, .escape hp h1, by omega, by simp; omega, ?_, ?_⟩
          · simp only [h2, CharError.max_succ, List.length_append, List.length_cons]
            omega
          · simp only [h2, CharError.max_succ, implies_true]
        · have hm : ∀ x, (CharError.mk (('u' :: (ds ++ r')).length + 1) x).max ⟨r'.length, []⟩ = ⟨r'.length, []⟩ := fun x =>
            CharError.max_right (by rw [List.length_cons, List.length_append]; simp only; omega)
          refine ⟨3 + w.length + ds.length, _, .digits hp h2 h1 h3, by omega, by simp; omega, ?_, ?_⟩
          · simp only [h4, hm]
            simp only [List.length_append, List.length_cons]
            omega
          · simp only [h4, hm, implies_true]
      · simp [lexQuotedChar, hd, hd'] at hq

/-- The error of a token. -/
theorem tokenError_spec {cs : Str} (h : lexToken cs = none) :
    ∃ i ex, Fails cs i ex ∧ i ≤ cs.length ∧ (tokenError cs).left = cs.length - i ∧ ∀ c, c ∈ (tokenError cs).expected ↔ c ∈ ex := by
  obtain ⟨h1, h2, h3, h4⟩ := lexToken_none h
  cases cs with
  | nil => exact ⟨0, _, .nothing (by simp), by simp, by decide, fun c => Iff.rfl⟩
  | cons c cs =>
    have hw : isIdentStart c = false := by
      simp only [lexIdent, lexIdentStr, Option.map_eq_none_iff] at h1
      by_contra hc
      simp [hc] at h1
    have ho : 'o' ≠ c := by rintro rfl; simp [isIdentStart] at hw
    by_cases hq : c = '`'
    · subst hq
      obtain ⟨i, ex, hf, k1, k2, k3, k4⟩ := quotedError_spec h2
      refine ⟨i, ex, hf, by simpa using k2, ?_⟩
      have hn : newlineError ('`' :: cs) = ⟨cs.length + 1, ['\n', '\r']⟩ := by
        rw [newlineError, justError_ne _ _ (by decide), justError_ne _ _ (by decide), CharError.max_same]; rfl
      have : tokenError ('`' :: cs) = quotedError ('`' :: cs) := by
        have hl : (quotedError ('`' :: cs)).left < cs.length + 1 := by omega
        rw [tokenError, hn, justError_ne _ _ (by decide), oneOfError, filterError]
        simp only [List.length_cons, CharError.max_same]
        rw [CharError.max_left (a := quotedError ('`' :: cs)) hl, CharError.max_right (b := quotedError ('`' :: cs)) hl,
          CharError.max_right (b := quotedError ('`' :: cs)) hl, CharError.max_right (b := quotedError ('`' :: cs)) hl]
      rw [this]
      exact ⟨by simpa using k3, k4⟩
    · have hq' : quotedError (c :: cs) = ⟨cs.length + 1, ['`']⟩ := by
        rw [quotedError]
        · exact justError_ne _ _ (Ne.symm hq)
        · intro x hx; simp only [List.cons.injEq] at hx; exact hq hx.1
      by_cases hr : c = '\r'
      · subst hr
        have hx : ∀ c ∈ cs.head?, c ≠ '\n' := by
          rintro d hd rfl
          cases cs with
          | nil => simp at hd
          | cons x xs =>
            simp only [List.head?_cons, Option.mem_def, Option.some.injEq] at hd
            subst hd; simp [lexNewline] at h4
        refine ⟨1, _, .cr hx, by simp, ?_⟩
        have hj : justError c!"\r\n" ('\r' :: cs) = ⟨cs.length, ['\n']⟩ := by
          cases cs with
          | nil => rfl
          | cons x xs =>
            have hx' : ¬ '\n' = x := fun e => hx x (by simp) e.symm
            simp [justError, hx']
        have hn : newlineError ('\r' :: cs) = ⟨cs.length, ['\n']⟩ := by
          rw [newlineError, justError_ne _ _ (by decide), hj, CharError.max_right (by simp)]
        have : tokenError ('\r' :: cs) = ⟨cs.length, ['\n']⟩ := by
          rw [tokenError, hn, justError_ne _ _ ho, hq', oneOfError, filterError]
          simp only [List.length_cons, CharError.max_succ]
        rw [this]
        simp
      · have hn' : c ≠ '\n' := by rintro rfl; simp [lexNewline] at h4
        have hc : c ∉ c!"{};." := by
          intro hc
          simp only [List.mem_cons, List.not_mem_nil, or_false] at hc
          simp [lexCtrl, hc] at h3
        refine ⟨0, _, .nothing ?_, by simp, ?_⟩
        · intro d hd
          simp only [List.head?_cons, Option.mem_def, Option.some.injEq] at hd
          subst hd
          refine ⟨not_wordStart_of hw, ?_⟩
          simp only [List.mem_cons, List.not_mem_nil, or_false, not_or] at hc ⊢
          exact ⟨hq, hc.1, hc.2.1, hc.2.2.1, hc.2.2.2, hn', hr⟩
        · have : tokenError (c :: cs) = ⟨cs.length + 1, c!"o`{};.\n\r"⟩ := by
            rw [tokenError, newlineError, justError_ne _ _ ho, justError_ne _ _ (Ne.symm hn'), justError_ne _ _ (Ne.symm hr), hq', oneOfError, filterError]
            simp only [List.length_cons, CharError.max_same]
            rfl
          rw [this]
          simp

/-! ## Emitted errors -/

theorem quotedReports_spec {s w : Str} {e : Nat} (h : Pieces s w e) (r : Str) (pos fuel : Nat) (hf : w.length ≤ fuel) :
    ∃ l, BadEscapes pos w l ∧
      quotedReports (pos + (w ++ '`' :: r).length) fuel (w ++ '`' :: r) = l.map fun s => .custom s c!"invalid unicode character" := by
  induction h generalizing pos fuel with
  | nil =>
    refine ⟨[], .nil, ?_⟩
    cases fuel with
    | zero => rfl
    | succ fuel => rfl
  | cons hp h ih =>
    rename_i c w e s v n
    have := List.length_pos_iff.mpr (piece_ne hp)
    rw [List.length_append] at hf
    cases fuel with
    | zero => omega
    | succ fuel =>
      obtain ⟨l, hl, hr⟩ := ih (pos + w.length) fuel (by omega)
      refine ⟨_, .cons hp hl, ?_⟩
      rw [quotedReports, List.append_assoc, lexQuotedChar_complete hp]
      have e1 : pos + w.length + (v ++ '`' :: r).length = pos + (w ++ (v ++ '`' :: r)).length := by simp only [List.length_append]; omega
      rw [e1] at hr
      simp only [hr, List.map_append, List.map_replicate]
      congr 1
      cases hp with
      | raw => rfl
      | escape => rfl
      | unicode => rfl
      | surrogate a b c d =>
        simp only [List.length_append, List.length_cons, List.length_nil, List.replicate_one, List.cons.injEq, LexReport.custom.injEq,
          Span.mk.injEq, and_true]
        omega

theorem tokenReports_spec {t : Token} {w : Str} {e : Nat} (h : Lexeme t w e) (r : Str) (pos : Nat) :
    Emitted pos w (tokenReports (pos + (w ++ r).length) (w ++ r)) := by
  have key : ∀ c cs, w = c :: cs → c ≠ '`' → Emitted pos w (tokenReports (pos + (w ++ r).length) (w ++ r)) := by
    rintro c cs rfl hc
    have : tokenReports (pos + (c :: cs ++ r).length) (c :: cs ++ r) = [] := by
      rw [List.cons_append]
      unfold tokenReports
      split
      · rename_i heq; simp only [List.cons.injEq] at heq; exact absurd heq.1 hc
      · rfl
    rw [this]
    exact .plain (by simpa using hc)
  have word : IsWord w → Emitted pos w (tokenReports (pos + (w ++ r).length) (w ++ r)) := by
    rintro ⟨c, cs, rfl, hc, -⟩
    exact key c cs rfl (by rintro rfl; exact not_wordStart_of (by decide) hc)
  cases h with
  | edge => exact key _ _ rfl (by simp)
  | keyword h => exact word (keyword_isWord h)
  | word h => exact word h
  | quoted h =>
    rename_i s w
    obtain ⟨l, hl, hr⟩ := quotedReports_spec h r (pos + 1) ((w ++ '`' :: r).length) (by simp)
    have e1 : '`' :: (w ++ ['`']) ++ r = '`' :: (w ++ '`' :: r) := by simp
    have e2 : pos + ('`' :: (w ++ '`' :: r)).length = pos + 1 + (w ++ '`' :: r).length := by rw [List.length_cons]; omega
    rw [e1, tokenReports, e2, hr]
    exact .quoted hl
  | ctrl h =>
    simp only [List.mem_cons, List.not_mem_nil, or_false] at h
    rcases h with rfl | rfl | rfl | rfl <;> exact key _ _ rfl (by simp)
  | newline => exact key _ _ rfl (by simp)
  | crlf => exact key _ _ rfl (by simp)

/-! ## The whole source -/

theorem recoverAt_eq {x v : Str} {z : Token × List LexError × List Char} (hx : x ≠ []) (hv : lexToken v = some z)
    (hy : ∀ y, y <:+ x → y ≠ [] → lexToken (y ++ v) = none) : recoverAt (x ++ v) = v := by
  induction x with
  | nil => exact absurd rfl hx
  | cons c x ih =>
    rw [List.cons_append, recoverAt]
    cases x with
    | nil => rw [List.nil_append, hv]
    | cons d x =>
      rw [hy (d :: x) (List.suffix_cons _ _) (by simp)]
      exact ih (by simp) fun y h => hy y (h.trans (List.suffix_cons _ _))

theorem stepReports_strip (total : Nat) (cs : Str) : stepReports total (strip cs) = stepReports total cs := by
  unfold stepReports
  simp only [skipBefore_eq, strip_strip]

theorem loopReports_strip (total fuel : Nat) (cs : Str) : loopReports total fuel (strip cs) = loopReports total fuel cs := by
  cases fuel with
  | zero => rfl
  | succ fuel => rw [loopReports, loopReports, lexStep_strip, stepReports_strip]

theorem loopReports_spec (fuel pos : Nat) (cs : Str) (hf : cs.length ≤ fuel) : Reported pos cs (loopReports (pos + cs.length) fuel cs) := by
  induction fuel generalizing pos cs with
  | zero =>
    have : cs = [] := List.length_eq_zero_iff.mp (by omega)
    subst this
    refine Reported.stop (g := []) (r := []) (.blanks (by simp)) ⟨by simp, by simp⟩ ?_
    intro s hs
    rw [List.suffix_nil.mp hs, ← lexToken_none_iff]
    rfl
  | succ fuel ih =>
    obtain ⟨g, e, hg, ht⟩ := strip_spec cs
    have hlen : cs.length = g.length + (strip cs).length := by conv_lhs => rw [e, List.length_append]
    rw [loopReports]
    cases hs : lexStep (pos + cs.length) cs with
    | none =>
      simp only
      unfold lexStep at hs
      simp only [skipBefore_eq] at hs
      split at hs
      · cases hs
      · rename_i h0
        split at hs
        · cases hs
        · rename_i h1
          conv => arg 2; rw [e]
          exact .stop hg ht fun s hs => (lexToken_none_iff s).mp (lexRecover_none h1 h0 s hs)
    | some x =>
      obtain ⟨⟨t, sp⟩, errs, rest⟩ := x
      unfold lexStep at hs
      simp only [skipBefore_eq, skipAfter_eq] at hs
      unfold stepReports
      simp only [skipBefore_eq]
      split at hs
      · rename_i t' errs' rest' h0
        simp only [Option.some.injEq, Prod.mk.injEq] at hs
        obtain ⟨⟨rfl, rfl⟩, rfl, rfl⟩ := hs
        rw [h0]
        obtain ⟨w, n, e2, hw, rfl⟩ := (lexToken_iff _ _ _ _).mp h0
        have hl2 : (strip cs).length = w.length + rest'.length := by rw [e2, List.length_append]
        have := List.length_pos_iff.mpr (lexeme_ne hw.1)
        have hsc := ih (pos + g.length + w.length) rest' (by omega)
        have hem := tokenReports_spec hw.1 rest' (pos + g.length)
        simp only [loopReports_strip]
        have e3 : pos + cs.length = pos + g.length + w.length + rest'.length := by omega
        have e4 : pos + cs.length = pos + g.length + (w ++ rest').length := by rw [List.length_append]; omega
        rw [← e3] at hsc
        rw [← e4, ← e2] at hem
        have res := Reported.token (pos := pos) (g := g) (e2 ▸ hg) hw hem hsc
        rw [← e2, ← e] at res
        exact res
      · rename_i h0
        split at hs
        · rename_i t' errs' rest' h1
          simp only [Option.some.injEq, Prod.mk.injEq] at hs
          obtain ⟨⟨rfl, rfl⟩, rfl, rfl⟩ := hs
          rw [h0]
          simp only [loopReports_strip]
          obtain ⟨i, ex, hf1, hf2, hf3, hf4⟩ := tokenError_spec h0
          obtain ⟨x, v, e2, hx, hv, hu⟩ := lexRecover_some h1 h0
          have hrec : recoverAt (strip cs) = v := by rw [e2]; exact recoverAt_eq hx hv hu
          obtain ⟨w, n, rfl, hw, rfl⟩ := (lexToken_iff _ _ _ _).mp hv
          have hl2 : (strip cs).length = x.length + (w.length + rest'.length) := by rw [e2, List.length_append, List.length_append]
          have := List.length_pos_iff.mpr (lexeme_ne hw.1)
          have hsc := ih (pos + g.length + x.length + w.length) rest' (by omega)
          have hem := tokenReports_spec hw.1 rest' (pos + g.length + x.length)
          have e3 : pos + cs.length = pos + g.length + x.length + w.length + rest'.length := by omega
          have e4 : pos + cs.length = pos + g.length + x.length + (w ++ rest').length := by rw [List.length_append]; omega
          rw [← e3] at hsc
          rw [← e4, ← hrec] at hem
          have res := Reported.skip (pos := pos) (g := g) (e2 ▸ hg) (e2 ▸ ht) hx (fun y h1 h2 => (lexToken_none_iff _).mp (hu y h1 h2)) hw
            (e2 ▸ hf1) hf4 hem hsc
          rw [← e2, ← e] at res
          rw [List.cons_append]
          convert res using 2
          unfold CharError.report
          have e5 : pos + cs.length - (tokenError (strip cs)).left = pos + g.length + i := by omega
          have e6 : (strip cs).length - (tokenError (strip cs)).left = i := by omega
          rw [e5, e6, List.head?_drop]
        · cases hs

end Seiren
