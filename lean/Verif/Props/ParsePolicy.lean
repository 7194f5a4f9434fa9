import Verif.Proofs.ParsePolicy
/-! # C85: what the token parser returns and reports does not depend on how the errors of failed alternatives are kept -/

namespace Seiren

/-- Two reports that agree up to the order in which the expected tokens are listed, and how often. -/
def ParseReport.Same (a b : ParseReport) : Prop := a.span = b.span ∧ a.found = b.found ∧ ∀ t, t ∈ a.expected ↔ t ∈ b.expected

/-- **C85.** For every source and every policy: the same module, and the same reports — the same number, each at the same place about the
same token, with the same set of expected tokens. -/
theorem C85_policies (pol : ChoicePolicy) (src : Str) :
    (parseReportsWith pol src).1 = (parseReports src).1 ∧ List.Forall₂ ParseReport.Same (parseReportsWith pol src).2 (parseReports src).2 := by
  unfold parseReportsWith parseReports
  rcases tokenize src with ⟨_ | tokens, errs⟩
  · exact ⟨rfl, .nil⟩
  · have h := sim_module pol (tokens.map Prod.fst)
    simp only
    cases hl : lModule (tokens.map Prod.fst) with
    | error e =>
      cases hg : gModule pol (tokens.map Prod.fst) with
      | ok r => rw [hl, hg] at h; exact h.elim
      | error e' =>
        rw [hl, hg] at h
        refine ⟨rfl, .cons ?_ .nil⟩
        obtain ⟨⟨h1, h2⟩, -⟩ := h
        unfold parseReport
        rw [← h1]
        cases tokens[tokens.length - e.left]? with
        | none => exact ⟨rfl, rfl, fun t => (h2 t).symm⟩
        | some x => exact ⟨rfl, rfl, fun t => (h2 t).symm⟩
    | ok r =>
      obtain ⟨m, alt, rest⟩ := r
      cases hg : gModule pol (tokens.map Prod.fst) with
      | error e => rw [hl, hg] at h; exact h.elim
      | ok r' =>
        obtain ⟨m', alt', rest'⟩ := r'
        rw [hl, hg] at h
        obtain ⟨rfl, -, -, -⟩ := h
        exact ⟨rfl, .nil⟩

/-- A policy that differs from the model: the errors of failed alternatives are kept, and sets are listed the other way round. -/
def keepingPolicy : ChoicePolicy where
  mergeAlt := true
  unite a b := b ++ a
  mem_unite a b t := by simp [or_comm]

set_option maxRecDepth 100000 in
/-- A separator is missing: both policies report the same token and expect the same things, listed in different orders. -/
example : (parseReports c!"erd { a { x int y").2 =
      [⟨⟨16, 17⟩, some (.ident c!"y"), [.ctrl '}', .fk, .pk, .ctrl ';', .newline, .ctrl ';', .newline]⟩] ∧
    (parseReportsWith keepingPolicy c!"erd { a { x int y").2 =
      [⟨⟨16, 17⟩, some (.ident c!"y"), [.newline, .ctrl ';', .newline, .ctrl ';', .pk, .fk, .ctrl '}']⟩] := by
  decide +kernel

end Seiren
