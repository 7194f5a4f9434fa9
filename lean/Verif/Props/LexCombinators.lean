import Verif.Proofs.LexCombinators
/-!
# C84: the tokenizer is what its combinators compose to

The tokens and the reports of `Verif/Model/Lexer.lean` and `Verif/Model/Reports.lean` are those of the parser that is composed, as in
parser.rs:92-168, of one definition for each of chumsky's combinators (`Verif/Model/LexCombinators.lean`) — whatever the values of
those details of chumsky that are left open (`Policy`).
-/

namespace Seiren

/-- **C84.** For every source and every policy, the tokenizer composed of combinators has an output, and it is that of the model; the
errors are those of the model, each as often, in an order that depends on the policy; they come in the order of the model if a
recovery emits its failure first. -/
theorem C84_tokenizer (pol : Policy) (src : Str) :
    (kParseRecovery pol src).1 = (tokenize src).1 ∧
    ((kParseRecovery pol src).2).Perm (lexReports src) ∧
    (pol.failureFirst = true → (kParseRecovery pol src).2 = lexReports src) := by
  obtain ⟨rest, alt, h⟩ := kTokenizer_loop pol src.length src.length 0 none src le_rfl
  have hk : kTokenizer pol src.length src = (loopEmitted pol src.length src.length src, .ok ((lexLoop src.length src.length src).1, alt, rest)) := h
  unfold kParseRecovery
  rw [hk]
  obtain ⟨h1, h2⟩ := report_loop pol src src.length (List.suffix_refl src)
  exact ⟨rfl, h1, h2⟩

/-- A parser that never succeeds without consuming a character. -/
def Consumes {α : Type} (p : K α) : Prop := ∀ cs em a alt rest, p cs = (em, .ok (a, alt, rest)) → rest.length < cs.length

/-- **C84.** Every parser that is repeated in parser.rs:92-168 consumes a character whenever it succeeds: the loops end, and the fuel
of `kRepeated` is enough. -/
theorem C84_progress (pol : Policy) (total : Nat) :
    Consumes (kFilter fun c => c.isAlphanum || c == '_') ∧ Consumes (kFilter fun c => (hexVal c).isSome) ∧
    Consumes (kOr pol (kFilter fun c => c != '\\' && c != '`') (kEscape pol total)) ∧ Consumes (kOneOf c!" \t") ∧
    Consumes (kFilter fun c => c != '\n') ∧ Consumes kComment ∧ Consumes (kStep pol total) := by
  have filter : ∀ f, Consumes (kFilter f) := by
    intro f cs em a alt rest h
    cases cs with
    | nil => simp [kFilter] at h
    | cons c cs =>
      simp only [kFilter] at h
      split at h
      · cases h; simp
      · simp at h
  refine ⟨filter _, filter _, ?_, ?_, filter _, ?_, ?_⟩
  · intro cs em a alt rest h
    cases hq : lexQuotedChar cs with
    | none =>
      obtain ⟨em', hf⟩ := kQuotedChar_fail pol total hq
      change kQuotedChar pol total cs = _ at h
      rw [hf] at h
      simp at h
    | some r =>
      obtain ⟨c, errs, r⟩ := r
      obtain ⟨⟨alt', h1, -⟩, h2⟩ := kQuotedChar_ok pol total hq
      change kQuotedChar pol total cs = _ at h
      rw [h1] at h
      cases h
      exact h2
  · intro cs em a alt rest h
    cases cs with
    | nil => simp [kOneOf] at h
    | cons c cs =>
      simp only [kOneOf] at h
      split at h
      · cases h; simp
      · simp at h
  · intro cs em a alt rest h
    cases hq : lexComment cs with
    | none =>
      obtain ⟨e, em', hf⟩ := (kComment_spec cs).2 hq
      rw [hf] at h
      simp at h
    | some r =>
      obtain ⟨⟨s, alt', h1⟩, h2⟩ := (kComment_spec cs).1 r hq
      rw [h1] at h
      cases h
      exact h2
  · intro cs em a alt rest h
    cases hq : lexStep total cs with
    | none =>
      obtain ⟨e, em', hf⟩ := (kStep_spec pol total cs).2 hq
      rw [hf] at h
      simp at h
    | some r =>
      obtain ⟨t, errs, r⟩ := r
      obtain ⟨alt', h1⟩ := (kStep_spec pol total cs).1 _ _ _ hq
      rw [h1] at h
      cases h
      exact (lexStep_suffix hq).2

/-- **C84.** The fuel of a repetition does not matter, if the repeated parser consumes a character whenever it succeeds. -/
theorem C84_fuel {α : Type} {p : K α} (hp : Consumes p) (min : Nat) (max : Option Nat) (fuel fuel' n : Nat) (alt : Option CharError)
    (cs : List Char) (h : cs.length < fuel) (h' : cs.length < fuel') :
    kRepeatedLoop p min max fuel n alt cs = kRepeatedLoop p min max fuel' n alt cs := by
  induction fuel generalizing fuel' n alt cs with
  | zero => omega
  | succ fuel ih =>
    cases fuel' with
    | zero => omega
    | succ fuel' =>
      unfold kRepeatedLoop
      split
      · rfl
      · cases hr : p cs with
        | mk em r =>
          cases r with
          | error e => rfl
          | ok r =>
            obtain ⟨a, alt', rest⟩ := r
            have := hp _ _ _ _ _ hr
            simp only
            rw [ih fuel' (n + 1) (mergeCharAlts alt alt') rest (by omega) (by omega)]

/-- A policy as it may be that of chumsky. -/
def chumskyPolicy : Policy where
  takeFirst a b := a.length ≤ b.length
  failedErrors a _ := a
  mergeAlt := true
  keywordError cs := ⟨cs.length, []⟩
  failureFirst := false

/-- A policy that differs in everything. -/
def otherPolicy : Policy where
  takeFirst _ _ := false
  failedErrors _ b := b
  mergeAlt := false
  keywordError _ := ⟨0, c!"?"⟩
  failureFirst := true

set_option maxRecDepth 100000 in
/-- A source with unreadable characters, in front of a quoted name with an invalid escape: both policies give the same tokens and
the same errors, but in different orders. -/
example : kParseRecovery chumskyPolicy c!"a + `x\\ud800` // c\n" =
      (some [(.ident c!"a", ⟨0, 1⟩), (.ident ['x', Char.ofNat 0xFFFD], ⟨2, 13⟩), (.newline, ⟨18, 19⟩)],
        [.custom ⟨8, 12⟩ c!"invalid unicode character", .unexpected ⟨2, 3⟩ (some '+') c!"o`{};.\n\r"]) ∧
    kParseRecovery otherPolicy c!"a + `x\\ud800` // c\n" =
      (some [(.ident c!"a", ⟨0, 1⟩), (.ident ['x', Char.ofNat 0xFFFD], ⟨2, 13⟩), (.newline, ⟨18, 19⟩)],
        [.unexpected ⟨2, 3⟩ (some '+') c!"o`{};.\n\r", .custom ⟨8, 12⟩ c!"invalid unicode character"]) := by
  decide +kernel

end Seiren
