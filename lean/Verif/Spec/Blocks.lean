import Verif.Spec.Lexical
import Verif.Spec.Grammar
/-! # Specification: a source as a sequence of blocks of lines -/

namespace Seiren.Spec

/-- The text `t` can be read as the tokens `ts`, without errors, if nothing or a new line follows it. -/
def Spells (ts : List Token) (t : Str) : Prop := ∃ ls, Layout ls t ∧ (∀ l ∈ ls, l.2 = 0) ∧ ls.map Prod.fst = ts

/-- A block: some entries (perhaps none), written in any of the ways the grammar allows, with blank lines, separators and comments before
and behind them. -/
def Block (es : List ModuleEntry) (t : Str) : Prop :=
  ∃ p ws q, (∀ s ∈ p ++ q, IsSeparator s) ∧ Items implemented (EntryG implemented) es ws ∧ Spells (p ++ (ws ++ q)) t

/-- How a module begins: everything up to its brace. -/
def Opening (name : Option Str) (t : Str) : Prop :=
  ∃ p q n, (∀ s ∈ p ++ q, IsSeparator s) ∧ NameG implemented name n ∧ Spells (p ++ .erd :: (q ++ (n ++ [.ctrl '{']))) t

/-- How it ends: separators, its brace, and whatever tokens follow (`C13`). -/
def Closing (t : Str) : Prop := ∃ p v, (∀ s ∈ p, IsSeparator s) ∧ Spells (p ++ .ctrl '}' :: v) t

/-- One text below the other. -/
def below (t t' : Str) : Str := t ++ '\n' :: t'

/-- A block of lines with `//` in front of each of its lines. -/
def commentOut (t : Str) : Str := '/' :: '/' :: t.flatMap fun c => if c = '\n' then c!"\n//" else [c]

/-- The source with the blocks `t₁`, `t` and `t₂` below each other. -/
def sourceOf (a t₁ t t₂ z : Str) : Str := below a (below (below t₁ (below t t₂)) z)

end Seiren.Spec
