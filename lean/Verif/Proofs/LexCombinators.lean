import Verif.Model.LexCombinators
import Verif.Proofs.Reports
/-! # Lemmas on the combinators of the tokenizer -/

namespace Seiren

/-- The parser succeeds with these emitted errors, this output and this rest. -/
def Yields {α : Type} (p : K α) (cs : List Char) (em : List Emitted) (a : α) (rest : List Char) : Prop :=
  ∃ alt, p cs = (em, .ok (a, alt, rest))

/-- The parser fails with this error. -/
def FailsAt {α : Type} (p : K α) (cs : List Char) (e : CharError) : Prop := ∃ em, p cs = (em, .error e)

theorem CharError.max_assoc (a b c : CharError) : (a.max b).max c = a.max (b.max c) := by
  obtain ⟨l, x⟩ := a
  obtain ⟨m, y⟩ := b
  obtain ⟨n, z⟩ := c
  unfold CharError.max
  rcases lt_trichotomy l m with h1 | h1 | h1 <;> rcases lt_trichotomy m n with h2 | h2 | h2 <;> rcases lt_trichotomy l n with h3 | h3 | h3 <;>
    first
      | omega
      | simp only [h1, h2, h3, not_lt_of_gt, lt_irrefl, if_true, if_false, List.append_assoc]

theorem CharError.max_le (a b : CharError) {n : Nat} (ha : a.left ≤ n) (hb : b.left ≤ n) : (a.max b).left ≤ n := by
  unfold CharError.max
  split
  · exact ha
  · split
    · exact hb
    · exact ha

section
variable {α β : Type}

theorem yields_map {p : K α} (f : α → β) {cs em a rest} (h : Yields p cs em a rest) : Yields (kMap f p) cs em (f a) rest := by
  obtain ⟨alt, h⟩ := h
  exact ⟨alt, by simp [kMap, h]⟩

theorem fails_map {p : K α} (f : α → β) {cs e} (h : FailsAt p cs e) : FailsAt (kMap f p) cs e := by
  obtain ⟨em, h⟩ := h
  exact ⟨em, by simp [kMap, h]⟩

theorem yields_then {p : K α} {q : K β} {cs em a rest em' b rest'} (h : Yields p cs em a rest) (h' : Yields q rest em' b rest') :
    Yields (kThen p q) cs (em ++ em') (a, b) rest' := by
  obtain ⟨alt, h⟩ := h
  obtain ⟨alt', h'⟩ := h'
  exact ⟨mergeCharAlts alt alt', by simp only [kThen, h, h']⟩

theorem fails_then {p : K α} (q : K β) {cs e} (h : FailsAt p cs e) : FailsAt (kThen p q) cs e := by
  obtain ⟨em, h⟩ := h
  exact ⟨em, by simp [kThen, h]⟩

theorem yields_padded {p : K α} {q : K β} {cs em a cs' rest rest' x y} (h1 : Yields q cs [] x cs') (h2 : Yields p cs' em a rest)
    (h3 : Yields q rest [] y rest') : Yields (kPaddedBy p q) cs em a rest' := by
  have := yields_map Prod.fst (yields_then (yields_map Prod.snd (yields_then h1 h2)) h3)
  rw [List.nil_append, List.append_nil] at this
  exact this

theorem yields_or_first (pol : Policy) {p q : K α} {cs a rest} (h : Yields p cs [] a rest) : Yields (kOr pol p q) cs [] a rest := by
  obtain ⟨alt, h⟩ := h
  exact ⟨alt, by simp [kOr, h]⟩

theorem yields_or_left (pol : Policy) {p q : K α} {cs em a rest e} (h : Yields p cs em a rest) (h' : FailsAt q cs e) :
    Yields (kOr pol p q) cs em a rest := by
  obtain ⟨alt, h⟩ := h
  obtain ⟨em', h'⟩ := h'
  cases em with
  | nil => exact ⟨alt, by simp [kOr, h]⟩
  | cons x em => exact ⟨alt, by simp [kOr, h, h']⟩

theorem yields_or_right (pol : Policy) {p q : K α} {cs em a rest e} (h : FailsAt p cs e) (h' : Yields q cs em a rest) :
    Yields (kOr pol p q) cs em a rest := by
  obtain ⟨em', h⟩ := h
  obtain ⟨alt, h'⟩ := h'
  exact ⟨if pol.mergeAlt = true then mergeCharAlts (some e) alt else alt, by simp only [kOr, h, h']⟩

theorem fails_or (pol : Policy) {p q : K α} {cs e e'} (h : FailsAt p cs e) (h' : FailsAt q cs e') :
    FailsAt (kOr pol p q) cs (e.max e') := by
  obtain ⟨em, h⟩ := h
  obtain ⟨em', h'⟩ := h'
  exact ⟨pol.failedErrors em em', by simp only [kOr, h, h']⟩

end

/-! ## Characters and words -/

theorem kJust_eq (s : Str) (cs : List Char) : kJust s cs =
    ([], match lexJust s cs with | some rest => .ok (s, none, rest) | none => .error (justError s cs)) := by
  have : kJustLoop s cs = match lexJust s cs with | some rest => .ok rest | none => .error (justError s cs) := by
    induction s generalizing cs with
    | nil => rfl
    | cons p ps ih =>
      cases cs with
      | nil => rfl
      | cons c cs =>
        simp only [kJustLoop, lexJust, justError]
        split
        · exact ih cs
        · rfl
  unfold kJust
  rw [this]
  cases lexJust s cs <;> rfl

theorem kChar_eq (c : Char) (cs : List Char) : kChar c cs =
    ([], match cs with | [] => .error ⟨0, [c]⟩ | d :: rest => if c = d then .ok (c, none, rest) else .error ⟨rest.length + 1, [c]⟩) := by
  unfold kChar kMap
  rw [kJust_eq]
  cases cs with
  | nil => rfl
  | cons d rest => by_cases h : c = d <;> simp [lexJust, justError, h]

theorem kCharTo_eq (c x : Char) (cs : List Char) : kCharTo c x cs =
    ([], match cs with | [] => .error ⟨0, [c]⟩ | d :: rest => if c = d then .ok (x, none, rest) else .error ⟨rest.length + 1, [c]⟩) := by
  unfold kCharTo kMap
  rw [kJust_eq]
  cases cs with
  | nil => rfl
  | cons d rest => by_cases h : c = d <;> simp [lexJust, justError, h]

theorem filter_loop (f : Char → Bool) (fuel n : Nat) (alt : Option CharError) (cs : List Char) (hf : cs.length < fuel) :
    ∃ alt', kRepeatedLoop (kFilter f) 0 none fuel n alt cs = ([], .ok (cs.takeWhile f, alt', cs.dropWhile f)) := by
  induction fuel generalizing n alt cs with
  | zero => omega
  | succ fuel ih =>
    cases cs with
    | nil => exact ⟨_, by simp [kRepeatedLoop, kFilter]; rfl⟩
    | cons c cs =>
      by_cases hc : f c = true
      · obtain ⟨alt', h⟩ := ih (n + 1) (mergeCharAlts alt none) cs (by simpa using hf)
        exact ⟨alt', by simp [kRepeatedLoop, kFilter, hc, h]⟩
      · exact ⟨_, by simp [kRepeatedLoop, kFilter, hc]; rfl⟩

theorem yields_filter (f : Char → Bool) (cs : List Char) : Yields (kRepeated (kFilter f)) cs [] (cs.takeWhile f) (cs.dropWhile f) :=
  filter_loop f _ _ _ _ (by simp)

theorem kIdentStr_spec (cs : List Char) : match lexIdentStr cs with
    | some (s, rest) => Yields kIdentStr cs [] s rest
    | none => FailsAt kIdentStr cs (filterError cs) := by
  cases cs with
  | nil => exact ⟨[], rfl⟩
  | cons c cs =>
    simp only [lexIdentStr]
    by_cases hc : isIdentStart c = true
    · rw [if_pos hc]
      have h1 : Yields (kFilter fun c => c.isAlpha || c == '_') (c :: cs) [] c cs := ⟨none, by
        unfold isIdentStart at hc
        simp only [kFilter]
        rw [if_pos hc]⟩
      exact yields_map (fun (c, s) => c :: s) (yields_then h1 (yields_filter _ cs))
    · rw [if_neg hc]
      refine fails_map _ (fails_then _ ⟨[], ?_⟩)
      unfold isIdentStart at hc
      simp only [kFilter]
      rw [if_neg hc]
      rfl

theorem kKeywordStr_spec (pol : Policy) (k : Str) (t : Token) (cs : List Char) :
    (∀ rest, lexKeywordStr k t cs = some (t, rest) → Yields (kMap (fun _ => t) (kKeywordStr pol k)) cs [] t rest) ∧
    (lexKeywordStr k t cs = none → FailsAt (kMap (fun _ => t) (kKeywordStr pol k)) cs
      (if (lexIdentStr cs).isSome then pol.keywordError cs else filterError cs)) := by
  have h := kIdentStr_spec cs
  unfold lexKeywordStr
  cases hi : lexIdentStr cs with
  | none =>
    rw [hi] at h
    obtain ⟨em, h⟩ := h
    refine ⟨by simp, fun _ => fails_map _ ⟨em, by simp [kKeywordStr, kTryMap, h]⟩⟩
  | some r =>
    obtain ⟨s, rest⟩ := r
    rw [hi] at h
    obtain ⟨alt, h⟩ := h
    by_cases hs : s = k
    · refine ⟨?_, by simp [hs]⟩
      intro rest' hr
      simp only [hs, if_true, Option.some.injEq, Prod.mk.injEq, true_and] at hr
      subst hr
      exact yields_map (a := ()) (fun _ => t) ⟨alt, by simp [kKeywordStr, kTryMap, h, hs]⟩
    · exact ⟨by simp [hs], fun _ => fails_map _ ⟨[], by simp [kKeywordStr, kTryMap, h, hs]⟩⟩

theorem yields_choice_first {α : Type} {p : K α} {rs : List (K α)} {cs em a rest} (h : Yields p cs em a rest) : Yields (kChoice p rs) cs em a rest := by
  obtain ⟨alt, h⟩ := h
  cases rs with
  | nil => exact ⟨alt, h⟩
  | cons r rs => exact ⟨alt, by simp [kChoice, h]⟩

theorem yields_choice_next {α : Type} {p r : K α} {rs : List (K α)} {cs em a rest e} (h : FailsAt p cs e) (h' : Yields (kChoice r rs) cs em a rest) :
    Yields (kChoice p (r :: rs)) cs em a rest := by
  obtain ⟨em', h⟩ := h
  obtain ⟨alt, h'⟩ := h'
  exact ⟨alt, by simp [kChoice, h, h']⟩

theorem fails_choice {α : Type} {p r : K α} {rs : List (K α)} {cs e e'} (h : FailsAt p cs e) (h' : FailsAt (kChoice r rs) cs e') :
    FailsAt (kChoice p (r :: rs)) cs (e.max e') := by
  obtain ⟨em, h⟩ := h
  obtain ⟨em', h'⟩ := h'
  exact ⟨[], by simp [kChoice, h, h']⟩

theorem keywordStr_token {k : Str} {t t' : Token} {cs rest : List Char} (h : lexKeywordStr k t cs = some (t', rest)) : t' = t := by
  unfold lexKeywordStr at h
  split at h
  · split at h
    · cases h; rfl
    · cases h
  · cases h

theorem kKeyword_spec (pol : Policy) (cs : List Char) :
    (∀ t rest, lexKeyword cs = some (t, rest) → Yields (kKeyword pol) cs [] t rest) ∧
    (lexKeyword cs = none → ∃ e, FailsAt (kKeyword pol) cs e ∧ (lexIdentStr cs = none → e = filterError cs)) := by
  have step : ∀ {k : Str} {t0 : Token} {p r : K Token} {rs : List (K Token)} {l : Option (Token × List Char)},
      p = kMap (fun _ => t0) (kKeywordStr pol k) →
      ((∀ t rest, l = some (t, rest) → Yields (kChoice r rs) cs [] t rest) ∧
        (l = none → ∃ e, FailsAt (kChoice r rs) cs e ∧ (lexIdentStr cs = none → e = filterError cs))) →
      (∀ t rest, (lexKeywordStr k t0 cs <|> l) = some (t, rest) → Yields (kChoice p (r :: rs)) cs [] t rest) ∧
        ((lexKeywordStr k t0 cs <|> l) = none → ∃ e, FailsAt (kChoice p (r :: rs)) cs e ∧ (lexIdentStr cs = none → e = filterError cs)) := by
    rintro k t0 p r rs l rfl ⟨h1, h2⟩
    obtain ⟨g1, g2⟩ := kKeywordStr_spec pol k t0 cs
    cases hk : lexKeywordStr k t0 cs with
    | some x =>
      obtain ⟨t', rest'⟩ := x
      obtain rfl := keywordStr_token hk
      refine ⟨?_, by simp⟩
      intro t rest h
      simp only [Option.orElse_eq_orElse, Option.orElse, Option.some.injEq, Prod.mk.injEq] at h
      obtain ⟨rfl, rfl⟩ := h
      exact yields_choice_first (g1 _ hk)
    | none =>
      have g3 := g2 hk
      simp only [Option.orElse_eq_orElse, Option.orElse]
      refine ⟨fun t rest h => yields_choice_next g3 (h1 t rest h), fun h => ?_⟩
      obtain ⟨e, he, hf⟩ := h2 h
      refine ⟨_, fails_choice g3 he, fun hn => ?_⟩
      rw [hf hn, hn]
      simp [filterError, CharError.max_same]
  unfold lexKeyword kKeyword
  refine step rfl (step rfl (step rfl (step rfl (step rfl (step rfl ?_)))))
  obtain ⟨g1, g2⟩ := kKeywordStr_spec pol c!"FK" .fk cs
  constructor
  · intro t rest h
    obtain rfl := keywordStr_token h
    exact g1 _ h
  · intro h
    exact ⟨_, g2 h, fun hn => by simp [hn]⟩

theorem kNewline_spec (cs : List Char) :
    (∀ t rest, lexNewline cs = some (t, rest) → Yields kNewline cs [] t rest) ∧ (lexNewline cs = none → FailsAt kNewline cs (newlineError cs)) := by
  have h1 := kJust_eq c!"\n" cs
  have h2 := kJust_eq c!"\r\n" cs
  cases ha : lexJust c!"\n" cs with
  | some r =>
    have he := (lexJust_iff _ _ _).mp ha
    subst he
    refine ⟨fun t rest h => ?_, fun h => by simp [lexNewline] at h⟩
    cases h
    rw [ha] at h1
    exact yields_choice_first (yields_map (fun _ => Token.newline) ⟨none, h1⟩)
  | none =>
    rw [ha] at h1
    have f1 : FailsAt (kMap (fun _ => Token.newline) (kJust c!"\n")) cs (justError c!"\n" cs) := fails_map _ ⟨[], h1⟩
    cases hb : lexJust c!"\r\n" cs with
    | some r =>
      have he := (lexJust_iff _ _ _).mp hb
      subst he
      refine ⟨fun t rest h => ?_, fun h => by simp [lexNewline] at h⟩
      cases h
      rw [hb] at h2
      exact yields_choice_next f1 (yields_map (fun _ => Token.newline) ⟨none, h2⟩)
    | none =>
      rw [hb] at h2
      have f2 : FailsAt (kMap (fun _ => Token.newline) (kJust c!"\r\n")) cs (justError c!"\r\n" cs) := fails_map _ ⟨[], h2⟩
      refine ⟨fun t rest h => ?_, fun _ => fails_choice f1 f2⟩
      obtain ⟨-, rfl | rfl⟩ := (lexNewline_iff _ _ _).mp h
      · simp [lexJust] at ha
      · simp [lexJust] at hb

theorem kCtrl_spec (cs : List Char) :
    (∀ t rest, lexCtrl cs = some (t, rest) → Yields kCtrl cs [] t rest) ∧ (lexCtrl cs = none → FailsAt kCtrl cs (oneOfError c!"{};." cs)) := by
  cases cs with
  | nil => exact ⟨fun t rest h => by simp [lexCtrl] at h, fun _ => ⟨[], rfl⟩⟩
  | cons c cs =>
    simp only [lexCtrl]
    by_cases hc : c = '{' ∨ c = '}' ∨ c = ';' ∨ c = '.'
    · rw [if_pos hc]
      refine ⟨?_, by simp⟩
      intro t rest h
      cases h
      refine yields_map Token.ctrl ⟨none, ?_⟩
      simp only [kOneOf]
      rw [if_pos (by simpa using hc)]
    · rw [if_neg hc]
      refine ⟨by simp, fun _ => fails_map _ ⟨[], ?_⟩⟩
      simp only [kOneOf]
      rw [if_neg (by simpa using hc)]
      rfl

/-! ## Escapes -/

/-- `n` hexadecimal digits. -/
def hexRun : Nat → List Char → Option (Str × List Char)
  | 0, cs => some ([], cs)
  | _ + 1, [] => none
  | n + 1, c :: cs => if (hexVal c).isSome then (hexRun n cs).map fun (s, rest) => (c :: s, rest) else none

theorem kExactly_hex (n k fuel : Nat) (cs : List Char) (hf : cs.length < fuel) :
    kRepeatedLoop (kFilter fun c => (hexVal c).isSome) (k + n) (some (k + n)) fuel k none cs =
      ([], match hexRun n cs with | some (s, rest) => .ok (s, none, rest) | none => .error (digitsError n cs)) := by
  induction n generalizing k fuel cs with
  | zero =>
    cases fuel with
    | zero => omega
    | succ fuel => simp [kRepeatedLoop, hexRun]
  | succ n ih =>
    cases fuel with
    | zero => omega
    | succ fuel =>
      rw [kRepeatedLoop, if_neg (by simp)]
      cases cs with
      | nil => simp [kFilter, hexRun, digitsError, filterError]
      | cons c cs =>
        by_cases hc : (hexVal c).isSome = true
        · have := ih (k + 1) fuel cs (by simpa using hf)
          rw [show k + 1 + n = k + (n + 1) by omega] at this
          simp only [kFilter, hc, if_true, hexRun, digitsError, mergeCharAlts, this]
          cases hexRun n cs <;> simp
        · simp [kFilter, hexRun, digitsError, filterError, hc]

theorem kExactly_eq (cs : List Char) : kExactly (kFilter fun c => (hexVal c).isSome) 4 cs =
    ([], match hexRun 4 cs with | some (s, rest) => .ok (s, none, rest) | none => .error (digitsError 4 cs)) := by
  have := kExactly_hex 4 0 (cs.length + 1) cs (by simp)
  exact this

theorem hexRun_length {n : Nat} {cs s rest : List Char} (h : hexRun n cs = some (s, rest)) : cs.length = rest.length + n := by
  induction n generalizing cs s with
  | zero => cases h; rfl
  | succ n ih =>
    cases cs with
    | nil => cases h
    | cons c cs =>
      simp only [hexRun] at h
      split at h
      · obtain ⟨⟨s', r'⟩, h1, h2⟩ := Option.map_eq_some_iff.mp h
        cases h2
        have : cs.length = r'.length + n := ih h1
        show cs.length + 1 = r'.length + (n + 1)
        omega
      · cases h

theorem lexEscape_hex (ds : List Char) : lexEscape ('u' :: ds) = (hexRun 4 ds).map fun (s, rest) =>
    ((validateUnicode s).1, (validateUnicode s).2.map (fun _ => LexError.invalidUnicode), rest) := by
  rcases ds with - | ⟨a, - | ⟨b, - | ⟨c, - | ⟨d, cs⟩⟩⟩⟩ <;>
    try (simp [lexEscape, hexRun])
  cases ha : hexVal a <;> cases hb : hexVal b <;> cases hc : hexVal c <;> cases hd : hexVal d <;> 
    simp [validateUnicode, fromHex, unicodeChar, ha, hb, hc, hd]
  split <;> simp

/-- What is emitted behind the backslash. -/
def escapeEmitted (total : Nat) (errs : List LexError) (rest : List Char) : List Emitted :=
  errs.map fun _ => .custom ⟨total - (rest.length + 4), total - rest.length⟩ c!"invalid unicode character"

/-- The alternatives behind the backslash. -/
def kEscaped (pol : Policy) (total : Nat) : K Char :=
  kOr pol (kOr pol (kOr pol (kOr pol (kOr pol (kOr pol (kOr pol (kOr pol (kOr pol
      (kChar '\\')
      (kChar '/'))
      (kChar '"'))
      (kChar '`'))
      (kCharTo 'b' '\x08'))
      (kCharTo 'f' '\x0C'))
      (kCharTo 'n' '\n'))
      (kCharTo 'r' '\r'))
      (kCharTo 't' '\t'))
      (kIgnoreThen (kChar 'u') (kValidate total validateUnicode (kExactly (kFilter fun c => (hexVal c).isSome) 4)))

theorem kUnicode_eq (total : Nat) (c : Char) (cs : List Char) :
    kIgnoreThen (kChar 'u') (kValidate total validateUnicode (kExactly (kFilter fun c => (hexVal c).isSome) 4)) (c :: cs) =
      if 'u' = c then
        match hexRun 4 cs with
        | some (s, rest) => ((validateUnicode s).2.map (fun m => .custom ⟨total - (rest.length + 4), total - rest.length⟩ m),
            .ok ((validateUnicode s).1, none, rest))
        | none => ([], .error (digitsError 4 cs))
      else ([], .error ⟨cs.length + 1, ['u']⟩) := by
  unfold kIgnoreThen kMap kThen
  rw [kChar_eq]
  by_cases h : 'u' = c
  · simp only [h, if_true, kValidate, kExactly_eq]
    cases hr : hexRun 4 cs with
    | none => rfl
    | some r =>
      obtain ⟨s, rest⟩ := r
      simp only [spanSince, hexRun_length hr]
      rfl
  · simp only [h, if_false]

/-- An alternative that lies before the rest. -/
def OldAlt (alt : Option CharError) (rest : List Char) : Prop := ∀ e ∈ alt, rest.length < e.left

theorem oldAlt_merge {a b : Option CharError} {rest : List Char} (ha : OldAlt a rest) (hb : OldAlt b rest) : OldAlt (mergeCharAlts a b) rest := by
  intro e he
  cases a with
  | none => exact hb e he
  | some x =>
    cases b with
    | none => exact ha e he
    | some y =>
      have h1 := ha x rfl
      have h2 := hb y rfl
      simp only [mergeCharAlts, CharError.maxOpt, Option.mem_def, Option.some.injEq] at he
      subst he
      unfold CharError.max
      split
      · exact h1
      · split
        · exact h2
        · exact h1

/-- The parser succeeds, and its alternative lies before the rest. -/
def YieldsOld {α : Type} (p : K α) (cs : List Char) (em : List Emitted) (a : α) (rest : List Char) : Prop :=
  ∃ alt, p cs = (em, .ok (a, alt, rest)) ∧ OldAlt alt rest

theorem old_or_first (pol : Policy) {α : Type} {p q : K α} {cs a rest} (h : YieldsOld p cs [] a rest) : YieldsOld (kOr pol p q) cs [] a rest := by
  obtain ⟨alt, h, ho⟩ := h
  exact ⟨alt, by simp [kOr, h], ho⟩

theorem old_or_right (pol : Policy) {α : Type} {p q : K α} {cs em a rest e} (h : FailsAt p cs e) (he : rest.length < e.left)
    (h' : YieldsOld q cs em a rest) : YieldsOld (kOr pol p q) cs em a rest := by
  obtain ⟨em', h⟩ := h
  obtain ⟨alt, h', ho⟩ := h'
  refine ⟨if pol.mergeAlt = true then mergeCharAlts (some e) alt else alt, by simp only [kOr, h, h'], ?_⟩
  split
  · refine oldAlt_merge ?_ ho
    intro x hx
    cases hx
    exact he
  · exact ho

theorem kChar_fails {c d : Char} (h : c ≠ d) (cs : List Char) : FailsAt (kChar c) (d :: cs) ⟨cs.length + 1, [c]⟩ :=
  ⟨[], by rw [kChar_eq]; simp [h]⟩

theorem kCharTo_fails {c d : Char} (x : Char) (h : c ≠ d) (cs : List Char) : FailsAt (kCharTo c x) (d :: cs) ⟨cs.length + 1, [c]⟩ :=
  ⟨[], by rw [kCharTo_eq]; simp [h]⟩

theorem kChar_old (c : Char) (cs : List Char) : YieldsOld (kChar c) (c :: cs) [] c cs :=
  ⟨none, by rw [kChar_eq]; simp, by intro e he; cases he⟩

theorem kCharTo_old (c x : Char) (cs : List Char) : YieldsOld (kCharTo c x) (c :: cs) [] x cs :=
  ⟨none, by rw [kCharTo_eq]; simp, by intro e he; cases he⟩

theorem kEscaped_ok (pol : Policy) (total : Nat) {cs rest : List Char} {c : Char} {errs : List LexError} (h : lexEscape cs = some (c, errs, rest)) :
    YieldsOld (kEscaped pol total) cs (escapeEmitted total errs rest) c rest := by
  unfold kEscaped
  cases cs with
  | nil => simp [lexEscape] at h
  | cons d l =>
    by_cases hu : d = 'u'
    · subst hu
      rw [lexEscape_hex] at h
      obtain ⟨⟨s, r⟩, h1, h2⟩ := Option.map_eq_some_iff.mp h
      cases h2
      have hlen := hexRun_length h1
      refine old_or_right pol (fails_or pol (fails_or pol (fails_or pol (fails_or pol (fails_or pol (fails_or pol (fails_or pol (fails_or pol
        (kChar_fails (by decide) l) (kChar_fails (by decide) l)) (kChar_fails (by decide) l)) (kChar_fails (by decide) l))
        (kCharTo_fails _ (by decide) l)) (kCharTo_fails _ (by decide) l)) (kCharTo_fails _ (by decide) l)) (kCharTo_fails _ (by decide) l))
        (kCharTo_fails _ (by decide) l)) ?_ ⟨none, ?_, by intro e he; cases he⟩
      · simp [CharError.max_same]
        omega
      · rw [kUnicode_eq, if_pos rfl, h1]
        simp only [escapeEmitted, List.map_map, Function.comp_def]
        unfold validateUnicode
        split <;> rfl
    · unfold lexEscape at h
      split at h
      case h_10 => rename_i heq; cases heq; exact absurd rfl hu
      case h_11 => cases h
      all_goals
        rename_i heq
        cases heq
        cases h
        cases hm : pol.mergeAlt <;> 
        exact ⟨_, by
          simp only [kOr, kChar_eq, kCharTo_eq, hm, CharError.max_same, mergeCharAlts, CharError.maxOpt, Char.reduceEq, if_true, if_false,
            reduceCtorEq, escapeEmitted, List.map_nil]
          try rfl, by simp [OldAlt]⟩

theorem kUnicode_fail (total : Nat) (cs : List Char) : lexEscape cs = none →
    FailsAt (kIgnoreThen (kChar 'u') (kValidate total validateUnicode (kExactly (kFilter fun c => (hexVal c).isSome) 4))) cs
      (match cs with | 'u' :: ds => digitsError 4 ds | _ => justError c!"u" cs) := by
  intro h
  cases cs with
  | nil => exact ⟨[], rfl⟩
  | cons d l =>
    refine ⟨[], ?_⟩
    rw [kUnicode_eq]
    by_cases hd : 'u' = d
    · subst hd
      rw [if_pos rfl]
      rw [lexEscape_hex] at h
      cases hr : hexRun 4 l with
      | none => rfl
      | some r => rw [hr] at h; cases h
    · rw [if_neg hd]
      have hd' : d ≠ 'u' := fun e => hd e.symm
      simp [justError, hd, hd']

theorem kEscaped_fail (pol : Policy) (total : Nat) {cs : List Char} (h : lexEscape cs = none) :
    FailsAt (kEscaped pol total) cs (escapeError cs) := by
  have fc : ∀ c, ∀ cs : List Char, cs.head? ≠ some c → FailsAt (kChar c) cs (justError [c] cs) := by
    intro c cs hc
    refine ⟨[], ?_⟩
    rw [kChar_eq]
    cases cs with
    | nil => rfl
    | cons d l =>
      have : ¬ c = d := fun e => hc (by simp [e])
      simp [justError, this]
  have fct : ∀ c x, ∀ cs : List Char, cs.head? ≠ some c → FailsAt (kCharTo c x) cs (justError [c] cs) := by
    intro c x cs hc
    refine ⟨[], ?_⟩
    rw [kCharTo_eq]
    cases cs with
    | nil => rfl
    | cons d l =>
      have : ¬ c = d := fun e => hc (by simp [e])
      simp [justError, this]
  have hh : ∀ c ∈ c!"\\/\"`bfnrt", cs.head? ≠ some c := by
    intro c hc he
    cases cs with
    | nil => cases he
    | cons d l =>
      cases he
      exact lexEscape_head h hc
  have f1 := fails_or pol (fc '\\' cs (hh _ (by simp))) (fc '/' cs (hh _ (by simp)))
  have f2 := fails_or pol f1 (fc '"' cs (hh _ (by simp)))
  have f3 := fails_or pol f2 (fc '`' cs (hh _ (by simp)))
  have f4 := fails_or pol f3 (fct 'b' '\x08' cs (hh _ (by simp)))
  have f5 := fails_or pol f4 (fct 'f' '\x0C' cs (hh _ (by simp)))
  have f6 := fails_or pol f5 (fct 'n' '\n' cs (hh _ (by simp)))
  have f7 := fails_or pol f6 (fct 'r' '\r' cs (hh _ (by simp)))
  have f8 := fails_or pol f7 (fct 't' '\t' cs (hh _ (by simp)))
  have f9 := fails_or pol f8 (kUnicode_fail total cs h)
  simp only [CharError.max_assoc] at f9
  unfold kEscaped escapeError
  exact f9

/-! ## Quoted identifiers -/

theorem kIgnoreThen_char {α : Type} (c d : Char) (p : K α) (l : List Char) :
    kIgnoreThen (kChar c) p (d :: l) = if c = d then p l else ([], .error ⟨l.length + 1, [c]⟩) := by
  by_cases h : c = d
  · subst h
    simp only [kIgnoreThen, kMap, kThen, kChar_eq, if_true]
    obtain ⟨em, r⟩ := p l
    cases r <;> simp [CharError.maxOpt, mergeCharAlts]
  · simp only [kIgnoreThen, kMap, kThen, kChar_eq, if_neg h]

theorem kEscape_eq (pol : Policy) (total : Nat) : kEscape pol total = kIgnoreThen (kChar '\\') (kEscaped pol total) := rfl

/-- One character inside back quotes. -/
def kQuotedChar (pol : Policy) (total : Nat) : K Char := kOr pol (kFilter fun c => c != '\\' && c != '`') (kEscape pol total)

theorem kQuotedChar_ok (pol : Policy) (total : Nat) {cs rest : List Char} {c : Char} {errs : List LexError} (h : lexQuotedChar cs = some (c, errs, rest)) :
    YieldsOld (kQuotedChar pol total) cs (escapeEmitted total errs rest) c rest ∧ rest.length < cs.length := by
  cases cs with
  | nil => cases h
  | cons d l =>
    simp only [lexQuotedChar] at h
    by_cases hd : d ≠ '\\' ∧ d ≠ '`'
    · rw [if_pos hd] at h
      cases h
      exact ⟨old_or_first pol ⟨none, by simp [kFilter, hd], by intro e he; cases he⟩, by simp⟩
    · rw [if_neg hd] at h
      by_cases he : d = '\\'
      · subst he
        rw [if_pos rfl] at h
        obtain ⟨alt, h1, h2⟩ := kEscaped_ok pol total h
        have hlt : rest.length < l.length := by
          obtain ⟨w, e, hw, _, rfl⟩ := lexEscape_sound h
          have : w ≠ [] := by
            rintro rfl
            generalize hv : ['\\'] = v at hw
            cases hw with
            | raw c h1 h2 => cases hv; exact h1 rfl
            | _ => cases hv
          have := List.length_pos_iff.mpr this
          simp only [List.length_append]
          omega
        refine ⟨old_or_right pol (e := ⟨l.length + 1, []⟩) ⟨[], by simp [kFilter]⟩ (by simp; omega) ⟨alt, ?_, h2⟩, by simp; omega⟩
        rw [kEscape_eq, kIgnoreThen_char, if_pos rfl, h1]
      · rw [if_neg he] at h
        cases h

theorem kQuotedChar_fail (pol : Policy) (total : Nat) {cs : List Char} (h : lexQuotedChar cs = none) :
    FailsAt (kQuotedChar pol total) cs (quotedCharError cs) := by
  refine fails_or pol ?_ ?_
  · cases cs with
    | nil => exact ⟨[], rfl⟩
    | cons d l =>
      simp only [lexQuotedChar] at h
      have hd : ¬ (d ≠ '\\' ∧ d ≠ '`') := by
        intro hd
        rw [if_pos hd] at h
        cases h
      refine ⟨[], ?_⟩
      simp only [kFilter]
      rw [if_neg (by simpa using hd)]
      rfl
  · cases cs with
    | nil => exact ⟨[], rfl⟩
    | cons d l =>
      by_cases he : d = '\\'
      · subst he
        simp only [lexQuotedChar] at h
        simp at h
        obtain ⟨em, h1⟩ := kEscaped_fail pol total h
        refine ⟨em, ?_⟩
        rw [kEscape_eq, kIgnoreThen_char, if_pos rfl, h1]
        rfl
      · have he' : ¬ '\\' = d := fun h => he h.symm
        refine ⟨[], ?_⟩
        rw [kEscape_eq, kIgnoreThen_char, if_neg he']
        split
        · rename_i heq; cases heq; exact absurd rfl he
        · simp [justError, he']

theorem CharError.le_just (s : Str) (cs : List Char) : (justError s cs).left ≤ cs.length := by
  induction s generalizing cs with
  | nil => exact le_rfl
  | cons p ps ih =>
    cases cs with
    | nil => simp [justError]
    | cons c cs =>
      simp only [justError]
      split
      · exact (ih cs).trans (by simp)
      · simp

theorem CharError.le_digits (n : Nat) (cs : List Char) : (digitsError n cs).left ≤ cs.length := by
  induction n generalizing cs with
  | zero => exact le_rfl
  | succ n ih =>
    cases cs with
    | nil => exact le_rfl
    | cons c cs =>
      simp only [digitsError]
      split
      · exact (ih cs).trans (by simp)
      · exact le_rfl

theorem CharError.le_escape (cs : List Char) : (escapeError cs).left ≤ cs.length := by
  unfold escapeError
  refine CharError.max_le _ _ (le_just _ _) <| CharError.max_le _ _ (le_just _ _) <| CharError.max_le _ _ (le_just _ _) <|
    CharError.max_le _ _ (le_just _ _) <| CharError.max_le _ _ (le_just _ _) <| CharError.max_le _ _ (le_just _ _) <|
    CharError.max_le _ _ (le_just _ _) <| CharError.max_le _ _ (le_just _ _) <| CharError.max_le _ _ (le_just _ _) ?_
  split
  · exact (le_digits _ _).trans (by simp)
  · exact le_just _ _

theorem CharError.le_quotedChar (cs : List Char) : (quotedCharError cs).left ≤ cs.length := by
  unfold quotedCharError
  refine CharError.max_le _ _ le_rfl ?_
  split
  · exact (le_escape _).trans (by simp)
  · exact le_just _ _

/-- What is emitted inside back quotes. -/
def quotedEmitted (total : Nat) : Nat → List Char → List Emitted
  | 0, _ => []
  | fuel + 1, cs =>
    match lexQuotedChar cs with
    | none => []
    | some (_, errs, rest) => escapeEmitted total errs rest ++ quotedEmitted total fuel rest

theorem kQuoted_loop (pol : Policy) (total fuel n : Nat) (alt : Option CharError) (cs : List Char) (hf : cs.length ≤ fuel) (ha : OldAlt alt cs) :
    kRepeatedLoop (kQuotedChar pol total) 0 none (fuel + 1) n alt cs =
      (quotedEmitted total fuel cs, .ok ((lexQuotedBody fuel cs).1, some (quotedCharError (lexQuotedBody fuel cs).2.2), (lexQuotedBody fuel cs).2.2)) := by
  have stop : ∀ fuel, lexQuotedChar cs = none → kRepeatedLoop (kQuotedChar pol total) 0 none (fuel + 1) n alt cs =
      ([], .ok ([], some (quotedCharError cs), cs)) := by
    intro fuel h
    obtain ⟨em, h⟩ := kQuotedChar_fail pol total h
    have hm : mergeCharAlts alt (some (quotedCharError cs)) = some (quotedCharError cs) := by
      cases alt with
      | none => rfl
      | some a =>
        simp only [mergeCharAlts, CharError.maxOpt]
        rw [CharError.max_right]
        exact lt_of_le_of_lt (CharError.le_quotedChar cs) (ha a rfl)
    simp [kRepeatedLoop, h, hm]
  induction fuel generalizing n alt cs with
  | zero =>
    have : cs = [] := List.length_eq_zero_iff.mp (by omega)
    subst this
    exact stop 0 rfl
  | succ fuel ih =>
    cases hc : lexQuotedChar cs with
    | none =>
      rw [stop _ hc]
      simp [quotedEmitted, lexQuotedBody, hc]
    | some r =>
      obtain ⟨c, errs, rest⟩ := r
      obtain ⟨⟨alt', h1, h2⟩, hlt⟩ := kQuotedChar_ok pol total hc
      have ho : OldAlt (mergeCharAlts alt alt') rest := oldAlt_merge (fun e he => lt_trans hlt (ha e he)) h2
      have := ih (n + 1) (mergeCharAlts alt alt') rest (by omega) ho (by
        intro fuel h
        obtain ⟨em, h⟩ := kQuotedChar_fail pol total h
        have hm : mergeCharAlts (mergeCharAlts alt alt') (some (quotedCharError rest)) = some (quotedCharError rest) := by
          cases hx : mergeCharAlts alt alt' with
          | none => rfl
          | some a =>
            simp only [mergeCharAlts, CharError.maxOpt]
            rw [CharError.max_right]
            rw [hx] at ho
            exact lt_of_le_of_lt (CharError.le_quotedChar rest) (ho a rfl)
        simp [kRepeatedLoop, h, hm])
      rw [kRepeatedLoop, if_neg (by simp)]
      simp only [h1, this, quotedEmitted, lexQuotedBody, hc]

theorem kQuotedIdent_spec (pol : Policy) (total : Nat) (cs : List Char) :
    (∀ t errs rest, lexQuotedIdent cs = some (t, errs, rest) → Yields (kQuotedIdent pol total) cs (quotedEmitted total (cs.length - 1) cs.tail) t rest) ∧
    (lexQuotedIdent cs = none → FailsAt (kQuotedIdent pol total) cs (quotedError cs)) := by
  by_cases hq : ∃ l, cs = '`' :: l
  · obtain ⟨l, rfl⟩ := hq
    have hb := kQuoted_loop pol total l.length 0 none l le_rfl (by intro e he; cases he)
    have hbody : kIgnoreThen (kJust c!"`") (kRepeated (kQuotedChar pol total)) ('`' :: l) =
        (quotedEmitted total l.length l, .ok ((lexQuotedBody l.length l).1, some (quotedCharError (lexQuotedBody l.length l).2.2),
          (lexQuotedBody l.length l).2.2)) := by
      simp [kIgnoreThen, kMap, kThen, kJust_eq, lexJust, kRepeated, hb, mergeCharAlts]
    unfold lexQuotedIdent quotedError
    simp only
    generalize hg : lexQuotedBody l.length l = g at hbody ⊢
    obtain ⟨s, errs0, r⟩ := g
    simp only at hbody ⊢
    by_cases hr : ∃ r', r = '`' :: r'
    · obtain ⟨r', rfl⟩ := hr
      refine ⟨?_, by simp⟩
      intro t errs rest h
      cases h
      refine ⟨some (quotedCharError ('`' :: r')), ?_⟩
      unfold kQuotedIdent kMap kThenIgnore
      unfold kMap kThen
      rw [show (kRepeated (kOr pol (kFilter fun c => c != '\\' && c != '`') (kEscape pol total))) = kRepeated (kQuotedChar pol total) from rfl, hbody]
      simp only [kChar_eq, if_true, List.append_nil, List.tail_cons, List.length_cons, Nat.add_sub_cancel]
      rfl
    · refine ⟨?_, ?_⟩
      · intro t errs rest h
        split at h
        · rename_i heq; cases heq; exact absurd ⟨_, rfl⟩ hr
        · cases h
      · intro _
        have hc : FailsAt (kChar '`') r (justError c!"`" r) := by
          refine ⟨[], ?_⟩
          rw [kChar_eq]
          cases r with
          | nil => rfl
          | cons d l =>
            have : ¬ '`' = d := fun h => hr ⟨l, by rw [h]⟩
            simp [justError, this]
        obtain ⟨em, hc⟩ := hc
        refine ⟨quotedEmitted total l.length l ++ em, ?_⟩
        unfold kQuotedIdent kMap kThenIgnore
        unfold kMap kThen
        rw [show (kRepeated (kOr pol (kFilter fun c => c != '\\' && c != '`') (kEscape pol total))) = kRepeated (kQuotedChar pol total) from rfl, hbody]
        simp only [hc, CharError.maxOpt]
  · have h1 : lexQuotedIdent cs = none := by
      unfold lexQuotedIdent
      split
      · exact absurd ⟨_, rfl⟩ hq
      · rfl
    have h2 : quotedError cs = justError c!"`" cs := by
      unfold quotedError
      split
      · exact absurd ⟨_, rfl⟩ hq
      · rfl
    refine ⟨by simp [h1], fun _ => ?_⟩
    rw [h2]
    refine fails_map _ (fails_map _ (fails_then _ (fails_map _ (fails_then _ ⟨[], ?_⟩))))
    rw [kJust_eq]
    have : lexJust c!"`" cs = none := by
      cases hj : lexJust c!"`" cs with
      | none => rfl
      | some r => exact absurd ⟨r, (lexJust_iff _ _ _).mp hj⟩ hq
    rw [this]

/-! ## Tokens -/

/-- What is emitted by a token. -/
def tokenEmitted (total : Nat) : List Char → List Emitted
  | '`' :: cs => quotedEmitted total cs.length cs
  | _ => []

theorem kEdge_spec (cs : List Char) :
    (∀ t rest, lexEdge cs = some (t, rest) → Yields kEdge cs [] t rest) ∧ (lexEdge cs = none → FailsAt kEdge cs (justError c!"o--o" cs)) := by
  unfold lexEdge kEdge
  have h := kJust_eq c!"o--o" cs
  cases hj : lexJust c!"o--o" cs with
  | some r =>
    rw [hj] at h
    refine ⟨?_, by simp⟩
    intro t rest he
    cases he
    exact yields_map (fun _ => Token.edge) ⟨none, h⟩
  | none =>
    rw [hj] at h
    exact ⟨by simp, fun _ => fails_map _ ⟨[], h⟩⟩

theorem kIdent_spec (cs : List Char) :
    (∀ t rest, lexIdent cs = some (t, rest) → Yields kIdent cs [] t rest) ∧ (lexIdent cs = none → FailsAt kIdent cs (filterError cs)) := by
  unfold lexIdent kIdent
  have h := kIdentStr_spec cs
  cases hj : lexIdentStr cs with
  | some r =>
    obtain ⟨s, r⟩ := r
    rw [hj] at h
    refine ⟨?_, by simp⟩
    intro t rest he
    cases he
    exact yields_map _ h
  | none =>
    rw [hj] at h
    exact ⟨by simp, fun _ => fails_map _ h⟩

theorem kToken_ok (pol : Policy) (total : Nat) {cs rest : List Char} {t : Token} {errs : List LexError} (h : lexToken cs = some (t, errs, rest)) :
    Yields (kToken pol total) cs (tokenEmitted total cs) t rest := by
  obtain ⟨e1, e2⟩ := kEdge_spec cs
  obtain ⟨k1, k2⟩ := kKeyword_spec pol cs
  obtain ⟨i1, i2⟩ := kIdent_spec cs
  obtain ⟨q1, q2⟩ := kQuotedIdent_spec pol total cs
  obtain ⟨c1, c2⟩ := kCtrl_spec cs
  obtain ⟨n1, n2⟩ := kNewline_spec cs
  unfold lexToken at h
  have plain : (∀ l, cs ≠ '`' :: l) → tokenEmitted total cs = [] := by
    intro hn
    unfold tokenEmitted
    split
    · exact absurd rfl (hn _)
    · rfl
  unfold kToken
  cases he : lexEdge cs with
  | some r =>
    obtain ⟨t', r⟩ := r
    rw [he] at h
    cases h
    rw [plain (by rintro l rfl; simp [lexEdge, lexJust] at he)]
    exact yields_or_first pol <| yields_or_first pol <| yields_or_first pol <| yields_or_first pol <| yields_or_first pol (e1 _ _ he)
  | none =>
  replace e2 := e2 he
  cases hk : lexKeyword cs with
  | some r =>
    obtain ⟨t', r⟩ := r
    rw [he, hk] at h
    cases h
    rw [plain (by rintro l rfl; simp [lexKeyword, lexKeywordStr, lexIdentStr, isIdentStart] at hk)]
    exact yields_or_first pol <| yields_or_first pol <| yields_or_first pol <| yields_or_first pol <| yields_or_right pol e2 (k1 _ _ hk)
  | none =>
  obtain ⟨ek, k2, -⟩ := k2 hk
  have f2 := fails_or pol e2 k2
  cases hi : lexIdent cs with
  | some r =>
    obtain ⟨t', r⟩ := r
    rw [he, hk, hi] at h
    cases h
    rw [plain (by rintro l rfl; simp [lexIdent, lexIdentStr, isIdentStart] at hi)]
    exact yields_or_first pol <| yields_or_first pol <| yields_or_first pol <| yields_or_right pol f2 (i1 _ _ hi)
  | none =>
  have f3 := fails_or pol f2 (i2 hi)
  cases hq : lexQuotedIdent cs with
  | some r =>
    obtain ⟨t', es, r⟩ := r
    rw [he, hk, hi, hq] at h
    cases h
    have hb : ∃ l, cs = '`' :: l := by
      unfold lexQuotedIdent at hq
      split at hq
      · exact ⟨_, rfl⟩
      · cases hq
    obtain ⟨l, rfl⟩ := hb
    have := q1 _ _ _ hq
    rw [List.length_cons, Nat.add_sub_cancel, List.tail_cons] at this
    exact yields_or_left pol (yields_or_left pol (yields_or_right pol f3 this) (c2 (by simp [lexCtrl]))) (n2 (by simp [lexNewline]))
  | none =>
  have f4 := fails_or pol f3 (q2 hq)
  cases hc : lexCtrl cs with
  | some r =>
    obtain ⟨t', r⟩ := r
    rw [he, hk, hi, hq, hc] at h
    cases h
    rw [plain (by rintro l rfl; simp [lexCtrl] at hc)]
    exact yields_or_first pol <| yields_or_right pol f4 (c1 _ _ hc)
  | none =>
  have f5 := fails_or pol f4 (c2 hc)
  cases hn : lexNewline cs with
  | some r =>
    obtain ⟨t', r⟩ := r
    rw [he, hk, hi, hq, hc, hn] at h
    cases h
    rw [plain (by rintro l rfl; simp [lexNewline] at hn)]
    exact yields_or_right pol f5 (n1 _ _ hn)
  | none =>
    rw [he, hk, hi, hq, hc, hn] at h
    cases h

theorem kToken_fail (pol : Policy) (total : Nat) {cs : List Char} (h : lexToken cs = none) :
    FailsAt (kToken pol total) cs (tokenError cs) := by
  obtain ⟨h3, h4, h5, h6⟩ := lexToken_none h
  have h1 : lexEdge cs = none := by
    cases he : lexEdge cs with
    | none => rfl
    | some r => simp [lexToken, noErr, he] at h
  have h2 : lexKeyword cs = none := by
    cases he : lexKeyword cs with
    | none => rfl
    | some r => simp [lexToken, noErr, h1, he] at h
  obtain ⟨ek, k2, k3⟩ := (kKeyword_spec pol cs).2 h2
  have := k3 (by cases hi : lexIdentStr cs with | none => rfl | some r => simp [lexIdent, hi] at h3)
  subst this
  have := fails_or pol (fails_or pol (fails_or pol (fails_or pol (fails_or pol ((kEdge_spec cs).2 h1) k2) ((kIdent_spec cs).2 h3))
    ((kQuotedIdent_spec pol total cs).2 h4)) ((kCtrl_spec cs).2 h5)) ((kNewline_spec cs).2 h6)
  simp only [CharError.max_assoc] at this
  exact this

/-! ## Recovery -/

/-- What is emitted by a token that is read after skipping characters. -/
def recoverEmitted (pol : Policy) (total : Nat) (e : CharError) (cs : List Char) : List Emitted :=
  if pol.failureFirst then .failed e :: tokenEmitted total cs else tokenEmitted total cs ++ [.failed e]

theorem kRetry_spec (pol : Policy) (total : Nat) (em : List Emitted) (e : CharError) (cs : List Char) :
    (∀ t errs rest, lexRecover cs = some (t, errs, rest) →
      Yields (kRetry pol (kToken pol total) em e) cs (recoverEmitted pol total e (recoverAt cs)) t rest) ∧
    (lexRecover cs = none → FailsAt (kRetry pol (kToken pol total) em e) cs e) := by
  induction cs with
  | nil => exact ⟨fun t errs rest h => (by cases h), fun _ => ⟨em, rfl⟩⟩
  | cons c cs ih =>
    cases ht : lexToken cs with
    | some r =>
      obtain ⟨t, errs, rest⟩ := r
      obtain ⟨alt, hk⟩ := kToken_ok pol total ht
      refine ⟨?_, by simp [lexRecover, ht]⟩
      intro t' errs' rest' h
      simp only [lexRecover, ht] at h
      cases h
      exact ⟨alt, by simp only [kRetry, hk, recoverAt, ht, recoverEmitted]⟩
    | none =>
      obtain ⟨em', hk⟩ := kToken_fail pol total ht
      simp only [Yields, FailsAt, lexRecover, recoverAt, ht, kRetry, hk]
      exact ih

/-- What is emitted by an iteration of the tokenizer. -/
def stepEmitted (pol : Policy) (total : Nat) (cs : List Char) : List Emitted :=
  match lexToken (skipBefore cs) with
  | some _ => tokenEmitted total (skipBefore cs)
  | none => recoverEmitted pol total (tokenError (skipBefore cs)) (recoverAt (skipBefore cs))

/-! ## Padding -/

theorem oneOf_loop (ps : Str) (fuel n : Nat) (alt : Option CharError) (cs : List Char) (hf : cs.length < fuel) :
    Yields (kRepeatedLoop (kOneOf ps) 0 none fuel n alt) cs [] (cs.takeWhile fun c => decide (c ∈ ps)) (cs.dropWhile fun c => decide (c ∈ ps)) := by
  induction fuel generalizing n alt cs with
  | zero => omega
  | succ fuel ih =>
    cases cs with
    | nil => exact ⟨mergeCharAlts alt (some ⟨0, ps⟩), by simp [kRepeatedLoop, kOneOf]⟩
    | cons c cs =>
      by_cases hc : c ∈ ps
      · obtain ⟨alt', h⟩ := ih (n + 1) (mergeCharAlts alt none) cs (by simpa using hf)
        exact ⟨alt', by simp [kRepeatedLoop, kOneOf, hc, h]⟩
      · exact ⟨mergeCharAlts alt (some ⟨cs.length + 1, ps⟩), by simp [kRepeatedLoop, kOneOf, hc]⟩

theorem kSpaces_spec (cs : List Char) : ∃ s, Yields kSpaces cs [] s (skipSpaces cs) := by
  refine ⟨cs.takeWhile fun c => decide (c ∈ c!" \t"), ?_⟩
  have := oneOf_loop c!" \t" (cs.length + 1) 0 none cs (by omega)
  have hp : (fun c => decide (c ∈ c!" \t")) = fun c => c == ' ' || c == '\t' := by
    funext c
    by_cases h1 : c = ' ' <;> by_cases h2 : c = '\t' <;> simp [h1, h2]
  unfold skipSpaces
  rw [← hp]
  exact this

section
variable {α β : Type}

theorem fails_then_right {p : K α} {q : K β} {cs em a rest e} (h : Yields p cs em a rest) (h' : FailsAt q rest e) :
    ∃ e, FailsAt (kThen p q) cs e := by
  obtain ⟨alt, h⟩ := h
  obtain ⟨em', h'⟩ := h'
  exact ⟨e.maxOpt alt, em ++ em', by simp only [kThen, h, h']⟩

theorem fails_padded {p : K α} {q : K β} {cs a cs' e} (h1 : Yields q cs [] a cs') (h2 : FailsAt p cs' e) : ∃ e, FailsAt (kPaddedBy p q) cs e := by
  obtain ⟨e, h⟩ := fails_then_right h1 h2
  exact ⟨e, fails_map _ (fails_then _ (fails_map _ h))⟩

end

theorem kComment_spec (cs : List Char) :
    (∀ rest, lexComment cs = some rest → (∃ s, Yields kComment cs [] s rest) ∧ rest.length < cs.length) ∧
    (lexComment cs = none → ∃ e, FailsAt kComment cs e) := by
  obtain ⟨s, hs⟩ := kSpaces_spec cs
  have hl : (skipSpaces cs).length ≤ cs.length := (List.dropWhile_suffix _).length_le
  have hj := kJust_eq c!"//" (skipSpaces cs)
  unfold lexComment
  cases h : lexJust c!"//" (skipSpaces cs) with
  | some r =>
    have hcs := (lexJust_iff _ _ _).mp h
    rw [h] at hj
    have hcs' : skipSpaces cs = '/' :: '/' :: r := hcs
    rw [hcs']
    refine ⟨?_, by simp⟩
    intro rest he
    cases he
    obtain ⟨s', hs'⟩ := kSpaces_spec (r.dropWhile fun c => c != '\n')
    have hline := yields_map Prod.snd (yields_then ⟨none, hj⟩ (yields_filter (fun c => c != '\n') r))
    refine ⟨⟨_, yields_padded hs hline hs'⟩, ?_⟩
    have h1 : (skipSpaces (r.dropWhile fun c => c != '\n')).length ≤ (r.dropWhile fun c => c != '\n').length := (List.dropWhile_suffix _).length_le
    have h2 : (r.dropWhile fun c => c != '\n').length ≤ r.length := (List.dropWhile_suffix _).length_le
    rw [hcs'] at hl
    simp only [List.length_cons] at hl
    omega
  | none =>
    rw [h] at hj
    have hno : ∀ r, skipSpaces cs ≠ '/' :: '/' :: r := by
      intro r hr
      rw [(lexJust_iff c!"//" _ r).mpr hr] at h
      cases h
    refine ⟨?_, fun _ => fails_padded hs (fails_map _ (fails_then _ ⟨[], hj⟩))⟩
    intro rest he
    split at he
    · rename_i heq; exact absurd heq (hno _)
    · cases he

theorem comments_loop (fuel m n : Nat) (alt : Option CharError) (cs : List Char) (hf : cs.length < fuel) (hm : cs.length ≤ m) :
    ∃ ss, Yields (kRepeatedLoop kComment 0 none fuel n alt) cs [] ss (skipComments m cs) := by
  induction fuel generalizing m n alt cs with
  | zero => omega
  | succ fuel ih =>
    obtain ⟨h1, h2⟩ := kComment_spec cs
    cases h : lexComment cs with
    | none =>
      obtain ⟨e, em, h2⟩ := h2 h
      have : skipComments m cs = cs := by
        cases m with
        | zero => rfl
        | succ m => simp [skipComments, h]
      rw [this]
      exact ⟨[], mergeCharAlts alt (some e), by simp [kRepeatedLoop, h2]⟩
    | some rest =>
      obtain ⟨⟨s, alt', hs⟩, hlt⟩ := h1 rest h
      cases m with
      | zero => omega
      | succ m =>
        obtain ⟨ss, alt'', hss⟩ := ih m (n + 1) (mergeCharAlts alt alt') rest (by omega) (by omega)
        refine ⟨s :: ss, alt'', ?_⟩
        rw [kRepeatedLoop, if_neg (by simp)]
        simp only [hs, hss, skipComments, h, List.nil_append]

theorem kComments_spec (cs : List Char) : ∃ ss, Yields (kRepeated kComment) cs [] ss (skipComments cs.length cs) :=
  comments_loop _ _ _ _ _ (by omega) le_rfl

/-! ## The tokenizer -/

theorem kStep_spec (pol : Policy) (total : Nat) (cs : List Char) :
    (∀ t errs rest, lexStep total cs = some (t, errs, rest) → Yields (kStep pol total) cs (stepEmitted pol total cs) t rest) ∧
    (lexStep total cs = none → ∃ e, FailsAt (kStep pol total) cs e) := by
  obtain ⟨s, hs⟩ := kSpaces_spec cs
  obtain ⟨ss, hss⟩ := kComments_spec (skipSpaces cs)
  have key : ∀ t rest em, Yields (kRecoverWith pol (kToken pol total)) (skipBefore cs) em t rest →
      Yields (kStep pol total) cs em (t, ⟨total - (skipBefore cs).length, total - rest.length⟩) (skipAfter rest) := by
    intro t rest em h
    obtain ⟨ss', hss'⟩ := kComments_spec rest
    obtain ⟨s', hs'⟩ := kSpaces_spec (skipComments rest.length rest)
    refine yields_padded hs (yields_padded hss ?_ hss') hs'
    obtain ⟨alt, h⟩ := h
    refine ⟨alt, ?_⟩
    change kMapWithSpan total Prod.mk (kRecoverWith pol (kToken pol total)) (skipBefore cs) = _
    unfold kMapWithSpan
    rw [h]
    rfl
  unfold lexStep stepEmitted
  simp only
  cases ht : lexToken (skipBefore cs) with
  | some r =>
    obtain ⟨t, errs, rest⟩ := r
    refine ⟨?_, by simp⟩
    intro t' errs' rest' h
    cases h
    obtain ⟨alt, hk⟩ := kToken_ok pol total ht
    exact key _ _ _ ⟨alt, by simp only [kRecoverWith, hk]⟩
  | none =>
    obtain ⟨em, hk⟩ := kToken_fail pol total ht
    obtain ⟨r1, r2⟩ := kRetry_spec pol total em (tokenError (skipBefore cs)) (skipBefore cs)
    cases hr : lexRecover (skipBefore cs) with
    | some r =>
      obtain ⟨t, errs, rest⟩ := r
      refine ⟨?_, by simp⟩
      intro t' errs' rest' h
      cases h
      obtain ⟨alt, h⟩ := r1 _ _ _ hr
      exact key _ _ _ ⟨alt, by simp only [kRecoverWith, hk, h]⟩
    | none =>
      refine ⟨by simp, fun _ => ?_⟩
      obtain ⟨em', h⟩ := r2 hr
      have hf : FailsAt (kMapWithSpan total Prod.mk (kRecoverWith pol (kToken pol total))) (skipBefore cs) (tokenError (skipBefore cs)) :=
        ⟨em', by simp only [kMapWithSpan, kRecoverWith, hk, h]⟩
      obtain ⟨e, he⟩ := fails_padded hss hf
      exact fails_padded hs he

theorem lexStep_suffix {total : Nat} {cs rest : List Char} {t : Token × Span} {errs : List LexError} (h : lexStep total cs = some (t, errs, rest)) :
    rest <:+ cs ∧ rest.length < cs.length := by
  have hb : skipBefore cs <:+ cs := by
    rw [skipBefore_eq]
    obtain ⟨g, hg, -⟩ := strip_spec cs
    exact ⟨g, hg.symm⟩
  have tok : ∀ {cs : List Char} {t errs rest}, lexToken cs = some (t, errs, rest) → rest <:+ cs ∧ rest.length < cs.length := by
    intro cs t errs rest h
    obtain ⟨w, e, rfl, hw, -⟩ := (lexToken_iff _ _ _ _).mp h
    refine ⟨⟨w, rfl⟩, ?_⟩
    have := List.length_pos_iff.mpr (lexeme_ne hw.1)
    rw [List.length_append]
    omega
  have after : ∀ r : List Char, skipAfter r <:+ r := by
    intro r
    rw [skipAfter_eq]
    obtain ⟨g, hg, -⟩ := strip_spec r
    exact ⟨g, hg.symm⟩
  have done : ∀ {r : List Char}, (r <:+ skipBefore cs ∧ r.length < (skipBefore cs).length) → skipAfter r <:+ cs ∧ (skipAfter r).length < cs.length := by
    intro r hr
    refine ⟨((after r).trans hr.1).trans hb, ?_⟩
    have := (after r).length_le
    have := hb.length_le
    omega
  unfold lexStep at h
  simp only at h
  cases ht : lexToken (skipBefore cs) with
  | some r =>
    obtain ⟨t, es, r⟩ := r
    rw [ht] at h
    cases h
    exact done (tok ht)
  | none =>
    rw [ht] at h
    cases hr : lexRecover (skipBefore cs) with
    | none => rw [hr] at h; cases h
    | some r =>
      obtain ⟨t, es, r⟩ := r
      rw [hr] at h
      cases h
      obtain ⟨x, v, hv, -, ht', -⟩ := lexRecover_some hr ht
      obtain ⟨h1, h2⟩ := tok ht'
      have h3 : v <:+ skipBefore cs := ⟨x, hv.symm⟩
      exact done ⟨h1.trans h3, lt_of_lt_of_le h2 h3.length_le⟩

/-- What is emitted by all iterations. -/
def loopEmitted (pol : Policy) (total : Nat) : Nat → List Char → List Emitted
  | 0, _ => []
  | fuel + 1, cs =>
    match lexStep total cs with
    | none => []
    | some (_, _, rest) => stepEmitted pol total cs ++ loopEmitted pol total fuel rest

theorem kTokenizer_loop (pol : Policy) (total fuel n : Nat) (alt : Option CharError) (cs : List Char) (hf : cs.length ≤ fuel) :
    ∃ rest, Yields (kRepeatedLoop (kStep pol total) 0 none (fuel + 1) n alt) cs (loopEmitted pol total fuel cs) (lexLoop total fuel cs).1 rest := by
  have stop : ∀ fuel n alt cs, lexStep total cs = none → Yields (kRepeatedLoop (kStep pol total) 0 none (fuel + 1) n alt) cs [] [] cs := by
    intro fuel n alt cs h
    obtain ⟨e, em, h⟩ := (kStep_spec pol total cs).2 h
    exact ⟨mergeCharAlts alt (some e), by simp [kRepeatedLoop, h]⟩
  induction fuel generalizing n alt cs with
  | zero =>
    have : cs = [] := List.length_eq_zero_iff.mp (by omega)
    subst this
    exact ⟨[], stop 0 n alt [] (by rfl)⟩
  | succ fuel ih =>
    cases h : lexStep total cs with
    | none =>
      refine ⟨cs, ?_⟩
      simp only [loopEmitted, lexLoop, h]
      exact stop _ n alt cs h
    | some r =>
      obtain ⟨t, errs, rest⟩ := r
      obtain ⟨alt', h1⟩ := (kStep_spec pol total cs).1 _ _ _ h
      have hlt := (lexStep_suffix h).2
      obtain ⟨r, alt'', h2⟩ := ih (n + 1) (mergeCharAlts alt alt') rest (by omega)
      refine ⟨r, alt'', ?_⟩
      rw [kRepeatedLoop, if_neg (by simp)]
      simp only [h1, h2, loopEmitted, lexLoop, h]

/-! ## What is reported -/

theorem CharError.le_quoted (cs : List Char) : (quotedError cs).left ≤ cs.length := by
  unfold quotedError
  split
  · rename_i l
    obtain ⟨w, e, -, -, hw⟩ := lexQuotedBody_sound l.length l
    have hl : (lexQuotedBody l.length l).2.2.length ≤ l.length := by
      have := congrArg List.length hw
      rw [List.length_append] at this
      omega
    refine CharError.max_le _ _ ((le_just _ _).trans ?_) ((le_quotedChar _).trans ?_) <;> simp only [List.length_cons] <;> omega
  · exact le_just _ _

theorem CharError.le_token (cs : List Char) : (tokenError cs).left ≤ cs.length :=
  CharError.max_le _ _ (le_just _ _) <| CharError.max_le _ _ le_rfl <| CharError.max_le _ _ le_rfl <| CharError.max_le _ _ (le_quoted _) <|
    CharError.max_le _ _ le_rfl <| CharError.max_le _ _ (le_just _ _) (le_just _ _)

theorem report_failed {src cs : List Char} (hs : cs <:+ src) {e : CharError} (he : e.left ≤ cs.length) :
    (Emitted.failed e).report src = e.report src.length cs := by
  obtain ⟨x, rfl⟩ := hs
  unfold Emitted.report CharError.report
  have : (x ++ cs).length - e.left = x.length + (cs.length - e.left) := by
    rw [List.length_append]
    omega
  simp only
  rw [this, ← List.drop_drop, List.drop_left]

theorem report_token (src : Str) (total : Nat) (cs : List Char) : (tokenEmitted total cs).map (Emitted.report src) = tokenReports total cs := by
  have body : ∀ fuel cs, (quotedEmitted total fuel cs).map (Emitted.report src) = quotedReports total fuel cs := by
    intro fuel
    induction fuel with
    | zero => intro cs; rfl
    | succ fuel ih =>
      intro cs
      unfold quotedEmitted quotedReports
      cases lexQuotedChar cs with
      | none => rfl
      | some r =>
        obtain ⟨c, errs, rest⟩ := r
        simp only [List.map_append, ih, escapeEmitted, List.map_map]
        rfl
  unfold tokenEmitted tokenReports
  split
  · exact body _ _
  · rename_i hn
    split
    · exact absurd rfl (hn _)
    · rfl

theorem report_step (pol : Policy) (src : Str) {cs : List Char} (hs : cs <:+ src) :
    ((stepEmitted pol src.length cs).map (Emitted.report src)).Perm (stepReports src.length cs) ∧
    (pol.failureFirst = true → (stepEmitted pol src.length cs).map (Emitted.report src) = stepReports src.length cs) := by
  have hb : skipBefore cs <:+ src := by
    rw [skipBefore_eq]
    obtain ⟨g, hg, -⟩ := strip_spec cs
    exact List.IsSuffix.trans ⟨g, hg.symm⟩ hs
  unfold stepEmitted stepReports
  simp only
  cases lexToken (skipBefore cs) with
  | some r => exact ⟨by rw [report_token], fun _ => report_token _ _ _⟩
  | none =>
    simp only [recoverEmitted]
    cases pol.failureFirst with
    | true =>
      rw [if_pos rfl, List.map_cons, report_token, report_failed hb (CharError.le_token _)]
      exact ⟨.refl _, fun _ => rfl⟩
    | false =>
      simp only [Bool.false_eq_true, if_false, List.map_append, List.map_cons, List.map_nil, report_token, report_failed hb (CharError.le_token _)]
      exact ⟨List.perm_append_singleton _ _, fun h => h.elim⟩

theorem report_loop (pol : Policy) (src : Str) (fuel : Nat) {cs : List Char} (hs : cs <:+ src) :
    ((loopEmitted pol src.length fuel cs).map (Emitted.report src)).Perm (loopReports src.length fuel cs) ∧
    (pol.failureFirst = true → (loopEmitted pol src.length fuel cs).map (Emitted.report src) = loopReports src.length fuel cs) := by
  induction fuel generalizing cs with
  | zero => exact ⟨.refl _, fun _ => rfl⟩
  | succ fuel ih =>
    unfold loopEmitted loopReports
    cases h : lexStep src.length cs with
    | none => exact ⟨.refl _, fun _ => rfl⟩
    | some r =>
      obtain ⟨t, errs, rest⟩ := r
      obtain ⟨h1, h2⟩ := report_step pol src hs
      obtain ⟨h3, h4⟩ := ih ((lexStep_suffix h).1.trans hs)
      simp only [List.map_append]
      exact ⟨h1.append h3, fun hp => by rw [h2 hp, h4 hp]⟩

end Seiren
