import Lean.Elab.Term
/-!
# Shared vocabulary of the model

Rust `String`s are modelled as lists of Unicode scalar values (`List Char`): a Lean `Char` is exactly a
Unicode scalar value, as a Rust `char` is.  `c!"…"` is only notation for a literal list of characters.
-/

namespace Seiren

/-- Rust `String` / `&str`, as its sequence of `char`s. -/
abbrev Str := List Char

open Lean in
/-- `c!"ab"` is `['a', 'b']`. -/
macro:max "c!" s:str : term => do
  let cs : Array (TSyntax `term) := (s.getString.toList.map fun c => (⟨Syntax.mkCharLit c⟩ : TSyntax `term)).toArray
  `(([$cs,*] : List Char))

/-- The ways in which the modelled code can panic (an `unwrap`, an `assert!` or a `panic!`).
A Rust panic is an explicit error value of the model. -/
inductive Panic where
  /-- layout.rs:112 "[BUG] Placing node at …": same location, different orientation. -/
  | orientationConflict
  /-- layout.rs:846 "can't compute shortest path". -/
  | noRoute
  /-- layout.rs:512 `paths.pop_front().unwrap()` on an empty queue. -/
  | missingPath
  /-- renderer.rs:288 `assert!(path_points.len() >= 2)`. -/
  | pathTooShort
  /-- renderer.rs:357 "turnaround line is detected at #i". -/
  | turnaround (i : Nat)
  /-- `Option::unwrap` on `None` for a node that is not in the graph (layout.rs:700,818). -/
  | missingNode
  /-- The search loop ran out of the model's fuel.  No counterpart in the code; proved unreachable. -/
  | outOfFuel
  deriving DecidableEq, Repr

end Seiren
