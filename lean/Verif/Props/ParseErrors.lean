import Verif.Proofs.Viable
import Verif.Proofs.Lexer
/-! # C62, C63: where the parser reports an error, and what it says is expected there -/

namespace Seiren
open Spec

namespace Spec

/-- Some sentence of the grammar begins with these tokens. -/
def Viable (w : List Token) : Prop := ∃ m v, ModuleG implemented m (w ++ v)

end Spec

theorem viable_run (w : List Token) : Viable w ↔ ∃ s, St.s0.run w = some s := (viable_iff w).symm

/-- **C62** The parser of the whole program reports an error exactly when it returns no module, and then one. -/
theorem C62_one_report (src : Str) : ((parseReports src).1 = (parse src).1) ∧ (parseReports src).2.length = (parse src).2.2.length := by
  unfold parseReports parse
  rcases htok : tokenize src with ⟨_ | tokens, errs⟩
  · exact ⟨rfl, rfl⟩
  · simp only [parseTokens]
    rw [← lModule_erase, erase]
    rcases lModule (tokens.map Prod.fst) with e | ⟨m, alt, rest⟩
    · exact ⟨rfl, rfl⟩
    · exact ⟨rfl, rfl⟩

/-- **C62** The reported token is the first one that cannot be right: if the parser fails, there is a position `i` such that the
tokens before it begin some sentence, and either the input ends there (the report says so, and points behind the
last character) or the token at `i` is reported with its span, and no sentence begins with the tokens up to it.

**C63** The tokens listed as expected are exactly those that could come at `i` instead, identifiers excepted (which are never
listed): each of them continues the tokens before `i` to the beginning of a sentence, and no other token does. -/
theorem C62_C63_error_report (src : Str) (r : ParseReport) (h : r ∈ (parseReports src).2) :
    ∃ tokens errs i, tokenize src = (some tokens, errs) ∧ Viable ((tokens.take i).map Prod.fst) ∧
      ((i = tokens.length ∧ r.found = none ∧ r.span = ⟨src.length, src.length + 1⟩) ∨
       (∃ t, tokens[i]? = some (t, r.span) ∧ r.found = some t ∧ ¬ Viable ((tokens.take (i + 1)).map Prod.fst))) ∧
      ∀ t, t ∈ r.expected ↔ (∀ n, t ≠ .ident n) ∧ Viable ((tokens.take i).map Prod.fst ++ [t]) := by
  unfold parseReports at h
  rcases htok : tokenize src with ⟨_ | tokens, errs⟩
  · simp [htok] at h
  · rw [htok] at h
    simp only at h
    rcases hl : lModule (tokens.map Prod.fst) with e | ⟨m, alt, rest⟩
    · rw [hl] at h
      simp only [List.mem_singleton] at h
      obtain ⟨hacc, hleft, hexp⟩ := module_error hl
      generalize hts : tokens.map Prod.fst = ts at *
      have hlen : ts.length = tokens.length := by rw [← hts, List.length_map]
      have htake := crash_take .s0 ts
      rw [← hleft, hlen] at htake
      have hre : r.expected = e.expected := by
        rw [h, parseReport]; split <;> rfl
      refine ⟨tokens, errs, tokens.length - e.left, rfl, ?_, ?_, fun t => ?_⟩
      · rw [List.map_take, hts]
        exact (viable_run _).2 ⟨_, htake⟩
      · rw [h, parseReport]
        by_cases h0 : e.left = 0
        · left
          simp [h0]
        · right
          obtain ⟨t, ht, hdead⟩ := crash_next .s0 ts (by omega)
          rw [← hleft, hlen, ← hts, List.getElem?_map] at ht
          rcases hget : tokens[tokens.length - e.left]? with _ | ⟨t', sp⟩
          · simp [hget] at ht
          · simp only [hget, Option.map_some, Option.some.injEq] at ht
            subst ht
            refine ⟨t', by simp, rfl, ?_⟩
            rw [viable_run]
            rintro ⟨s, hs⟩
            have hi : tokens.length - e.left < tokens.length := (List.getElem?_eq_some_iff.mp hget).1
            rw [List.map_take, hts, List.take_add_one, run_append, htake] at hs
            have hg2 : ts[tokens.length - e.left]? = some t' := by rw [← hts, List.getElem?_map, hget]; rfl
            simp [St.run, hdead, hg2] at hs
      · rw [hre, hexp, viable_run, List.map_take, hts, run_append, htake, St.Lists]
        constructor
        · rintro ⟨hi, hs⟩
          obtain ⟨s', hs⟩ := Option.isSome_iff_exists.mp hs
          exact ⟨fun n h => hi ⟨n, h⟩, s', by simp [St.run, hs]⟩
        · rintro ⟨hi, s', hs⟩
          refine ⟨fun ⟨n, h⟩ => hi n h, ?_⟩
          rcases hst : (crash .s0 ts).1.step t with _ | sx
          · simp [St.run, hst] at hs
          · rfl
    · simp [hl] at h

/-- **C63** Something is always listed: the message never says "something else" (main.rs:68-69). -/
theorem C63_nonempty (src : Str) (r : ParseReport) (h : r ∈ (parseReports src).2) : r.expected ≠ [] := by
  unfold parseReports at h
  rcases htok : tokenize src with ⟨_ | tokens, errs⟩
  · simp [htok] at h
  · rw [htok] at h
    simp only at h
    rcases hl : lModule (tokens.map Prod.fst) with e | ⟨m, alt, rest⟩
    · rw [hl] at h
      simp only [List.mem_singleton] at h
      obtain ⟨hacc, hleft, hexp⟩ := module_error hl
      have hre : r.expected = e.expected := by
        rw [h, parseReport]; split <;> rfl
      rw [hre]
      have key : ∀ t, (crash .s0 (tokens.map Prod.fst)).1.Lists t → e.expected ≠ [] := by
        intro t ht he
        have := (hexp t).2 ht
        simp [he] at this
      have lists : ∀ s : St, ∃ t, s.Lists t := by
        intro s
        cases s <;> first
          | exact ⟨.newline, (lists_iff _ _).2 rfl⟩
          | exact ⟨.int, (lists_iff _ _).2 rfl⟩
          | exact ⟨.ctrl '.', (lists_iff _ _).2 rfl⟩
      obtain ⟨t, ht⟩ := lists (crash .s0 (tokens.map Prod.fst)).1
      exact key t ht
    · simp [hl] at h

/-- A misspelt key is reported at its place, with everything that could stand there. -/
example : (parseReports c!"erd { a { id int foo } }").2 =
    [⟨⟨17, 20⟩, some (.ident c!"foo"), [.ctrl '}', .fk, .pk, .ctrl ';', .newline, .ctrl ';', .newline]⟩] := by decide +kernel

/-- A missing brace is reported behind the end; a further entity could stand there as well, but identifiers are not listed. -/
example : (parseReports c!"erd { a { id int }\n").2 =
      [⟨⟨19, 20⟩, none, [.ctrl '}', .ctrl ';', .newline, .ctrl ';', .newline]⟩] ∧
    Viable [.erd, .ctrl '{', .ident c!"a", .ctrl '{', .ident c!"id", .int, .ctrl '}', .newline, .ident c!"b"] :=
  ⟨by decide +kernel, (viable_run _).2 ⟨.e1, rfl⟩⟩

end Seiren
