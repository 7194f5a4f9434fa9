import Verif.Model.Args
import Verif.Model.Stdout
import Verif.Model.Display
import Verif.Model.LexCombinators
import Verif.Model.ParsePolicy
import Verif.Model.Storage
import Verif.Proofs.F32Round
/-!
# Model of the whole program, with every part in its most detailed form

`src/main.rs` from the arguments to the bytes on standard output, composed of the models that are closest to the code: arguments as bytes
(`Model/Args`), the tokenizer and the parser as chumsky's combinators (`Model/LexCombinators`, `Model/ParsePolicy`), documents and route
graphs stored in petgraph's arrays and std's heap with its hole (`Model/Storage`), path costs of 32 bits, every operation on `f32` rounded
(`Model/F32Draw`, `Model/Machine`), numbers printed as `f32` prints them (`Model/Display`), and output through std's line buffer to a device
that may be full (`Model/Stdout`).

Not part of it: how ariadne prints a report (only which reports there are), and special values of `f32` (C96: none arises).
-/

namespace Seiren

/-- What the model leaves to the libraries and the way the program is built. -/
structure Libraries where
  /-- std: whether `Args::nth` looks at the argument it skips. -/
  readsFirst : Bool
  /-- chumsky, in the tokenizer. -/
  lexer : Policy
  /-- chumsky, in the parser. -/
  choice : ChoicePolicy
  /-- The result of an operation on `f32` whose exact result is too large for rounding. -/
  overflow : Rat → Rat
  /-- A sum of path costs: the sum, if it fits into 32 bits; otherwise whatever the profile makes of it. -/
  cost : Nat → Nat
  cost_eq : ∀ n < 4294967296, cost n = n
  /-- The crate `svg`: how it writes the text of a node. -/
  escape : Str → Str

/-- parser.rs:76-90 `parse`, and main.rs:28-33: the module and the errors. -/
def parseWhole (l : Libraries) (src : Str) : Option Module × List SimpleError :=
  let (tokens, tokenizeErrs) := kParseRecovery l.lexer src
  let (ast, parseErrs) :=
    match tokens with
    | some tokens =>
      match gModule l.choice (tokens.map Prod.fst) with
      | .ok (m, _, _) => (some m, [])
      | .error e => (none, [parseReport src.length tokens e])
    | none => (none, [])
  (ast, tokenizeErrs.map LexReport.simple ++ parseErrs.map ParseReport.simple)

/-- main.rs:110-130, and renderer.rs:214 `svg_doc.to_string()`: the text of the drawing; `none` if there is none. -/
def drawWhole (l : Libraries) (m : Module) : Option Str :=
  match drawModulePgM (roundOr l.overflow) sqrtF32 l.cost HoleHeap.queue m with
  | .error _ => none
  | .ok e => some (svgTextM l.escape e)

/-- main.rs:26-133, when the source was read. -/
def finishWhole (l : Libraries) (d : Devices) (filename : Str) : Option Str → Outcome
  | none => ⟨filename, [], [], .failure⟩
  | some src =>
    let (ast, errors) := parseWhole l src
    if d.reports < errors.length then ⟨filename, errors.take d.reports, [], .panic⟩
    else
      match ast with
      | none => ⟨filename, errors, [], .success⟩
      | some m =>
        match drawWhole l m with
        | none => ⟨filename, errors, [], .panic⟩
        | some text =>
          let (out, ok) := (BufWriter.mk [] ⟨d.room, []⟩).writeLines (encodeUtf8 text)
          ⟨filename, errors, out.atExit, if ok then .success else .panic⟩

/-- main.rs:10-134 `main`. -/
def runWhole (l : Libraries) (w : RawWorld) (d : Devices) : Outcome :=
  if w.args.length ≥ 2 then
    match secondArg l.readsFirst w.args with
    | some path => finishWhole l d path (readToString (w.file path))
    | none => ⟨c!"(stdin)", [], [], .panic⟩
  else finishWhole l d c!"(stdin)" (readToString w.stdin)

end Seiren
