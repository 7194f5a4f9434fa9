import Verif.Proofs.Reading
import Verif.Proofs.ReadingLower
import Verif.Props.Lexer
import Verif.Props.ParsePolicy
import Verif.Proofs.ReadingTokens
import Mathlib.Tactic.Linarith
/-!
# C95: how much reading it takes to read a source
-/

namespace Seiren
open Spec

/-- **C95**: the parsers whose reads are counted are the tokenizer of `Verif/Model/LexCombinators.lean` and the parser of
`Verif/Model/ParsePolicy.lean`. -/
theorem C95_same (pol : Policy) (pol' : ChoicePolicy) (total : Nat) :
    (nTokenizer pol total).run = kTokenizer pol total ∧ (mModule pol').run = gModule pol' := by
  refine ⟨?_, mModule_run pol'⟩
  show kRepeated (nStep pol total).run = _
  rw [nStep_run]
  rfl

/-- **C95**: the tokenizer reads at most `127·n + 76 + 16·n·b` characters, where `n` is the number of characters of the source and `b` the number of
its back quotes. -/
theorem C95_characters (pol : Policy) (src : Str) : charReads pol src ≤ 127 * src.length + 76 + 16 * (src.length * src.count '`') :=
  tokenizer_le pol src.length src.length _ 0 src le_rfl

/-- **C95**: without back quotes the number of characters read is linear in the length of the source, whatever the source is. -/
theorem C95_plain (pol : Policy) (src : Str) (h : '`' ∉ src) : charReads pol src ≤ 127 * src.length + 76 := by
  have := C95_characters pol src
  rw [List.count_eq_zero_of_not_mem h] at this
  omega

/-- **C95**: it is also linear for every source that consists of error-free tokens, whatever they are; of the back quotes only those behind the last
token count. -/
theorem C95_readable (pol : Policy) (src : Str) (ts : List Token) (v r : Str) (e : src = v ++ r) (h : LaidOut ts v r) (hr : NoTokenIn r) :
    charReads pol src ≤ 127 * src.length + 76 + 16 * (src.length * r.count '`') :=
  laidOut_le pol src.length src.length h hr _ 0 src le_rfl (e ▸ List.suffix_refl _) (e ▸ rfl)

/-- A source with names in back quotes, one of them with an escaped back quote, meets the hypotheses. -/
example : ∃ ts v r, c!"erd {`a` {`i\\`d` int}} " = v ++ r ∧ LaidOut ts v r ∧ NoTokenIn r := (C14_no_error_iff _).1 (by decide +kernel)

example : charReads chumskyPolicy c!"erd {a {id int}}" = 171 ∧ charReads chumskyPolicy c!"erd {`a` {id int}}" = 168 := by decide +kernel

/-- **C95**: but no linear bound holds for all sources: an unclosed quoted name made of `n` escaped back quotes is read over and over again, from each of
its back quotes to the end. -/
theorem C95_quadratic (pol : Policy) (n : Nat) : (endless n).length = 2 * n + 1 ∧ n * (n + 1) ≤ 2 * charReads pol (endless n) := by
  refine ⟨?_, le_charReads pol n⟩
  rw [endless, List.length_cons, escapedQuotes_length]

example : endless 2 = c!"`\\`\\`" ∧ charReads chumskyPolicy (endless 2) = 114 ∧ charReads chumskyPolicy (endless 4) = 218 := by decide +kernel

theorem C95_no_linear_bound (pol : Policy) : ¬ ∃ a b, ∀ src, charReads pol src ≤ a * src.length + b := by
  rintro ⟨a, b, h⟩
  obtain ⟨h1, h2⟩ := C95_quadratic pol (4 * a + 2 * b + 2)
  have h3 := h (endless (4 * a + 2 * b + 2))
  rw [h1] at h3
  nlinarith

/-- **C95**: the parser of tokens reads at most `33·n + 54` tokens, where `n` is the number of tokens of the source, whatever the source is. -/
theorem C95_tokens (pol : ChoicePolicy) (src : Str) (ts : List (Token × Span)) (errs : List LexError) (h : tokenize src = (some ts, errs)) :
    tokenReads pol src ≤ 33 * ts.length + 54 := by
  have := mModule_le pol (ts.map Prod.fst)
  rw [List.length_map] at this
  unfold tokenReads
  rw [h]
  exact this

example : tokenReads keepingPolicy c!"erd {a {id int}}" = 35 ∧ ((tokenize c!"erd {a {id int}}").1.map List.length) = some 8 := by decide +kernel

/-- **C95**, lower bounds: every character of a source is read, whatever the source is, and so is every token of a module that is accepted. -/
theorem C95_at_least (pol : Policy) (pol' : ChoicePolicy) (src : Str) :
    src.length ≤ charReads pol src ∧
    ∀ m, (parse src).1 = some m → ∃ xs w us, (tokenize src).1 = some xs ∧ xs.map Prod.fst = w ++ us ∧ ModuleG implemented m w ∧ w.length ≤ tokenReads pol' src := by
  refine ⟨tokenizer_reads_all pol src, fun m hm => ?_⟩
  unfold parse at hm
  unfold tokenReads
  generalize tokenize src = T at hm ⊢
  obtain ⟨_ | xs, errs⟩ := T
  · cases hm
  · simp only [parseTokens] at hm
    cases hp : pModule (xs.map Prod.fst) with
    | none => rw [hp] at hm; cases hm
    | some r =>
      obtain ⟨m', rest⟩ := r
      rw [hp] at hm
      obtain rfl : m' = m := by simpa using hm
      obtain ⟨w, hw, hg⟩ := pModule_sound hp
      refine ⟨xs, w, rest, rfl, hw, hg, ?_⟩
      rw [← lModule_erase, erase] at hp
      have hs := sim_module pol' (xs.map Prod.fst)
      cases hl : lModule (xs.map Prod.fst) with
      | error e => rw [hl] at hp; cases hp
      | ok r =>
        obtain ⟨m1, alt, rest1⟩ := r
        rw [hl] at hp hs
        simp only [Option.some.injEq, Prod.mk.injEq] at hp
        obtain ⟨rfl, rfl⟩ := hp
        cases hg' : gModule pol' (xs.map Prod.fst) with
        | error e => rw [hg'] at hs; exact hs.elim
        | ok r =>
          obtain ⟨m2, alt2, rest2⟩ := r
          rw [hg'] at hs
          obtain ⟨-, rfl, -, -⟩ := hs
          have := mModule_covers pol' (xs.map Prod.fst) m2 alt2 rest1 (by rw [mModule_run]; exact hg')
          rw [hw, List.length_append] at this
          simp only [hw]
          omega

example : (parse c!"erd {a {id int}}").1.isSome ∧ charReads chumskyPolicy c!"" = 17 := by decide +kernel

/-- **C95**: a name is compared with every keyword, each time read as a whole, so it is read at least eight times. -/
theorem C95_words (pol : Policy) (w : Str) (h : IsWord w) (hk : ∀ t, (w, t) ∉ keywords) : 8 * w.length ≤ charReads pol w := word_reads pol h hk

/-- `users` takes 72 reads, of which 40 are those of the theorem. -/
example : IsWord c!"users" ∧ (∀ t, (c!"users", t) ∉ keywords) ∧ charReads chumskyPolicy c!"users" = 72 :=
  ⟨⟨'u', c!"sers", rfl, by unfold WordStart; decide, by unfold WordChar WordStart; decide⟩, by simp [keywords], by decide +kernel⟩

end Seiren
