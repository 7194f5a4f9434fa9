import Verif.Model.Reports
import Verif.Model.SvgText
import Verif.Model.Utf8
/-! # Model of `main` (`src/main.rs`) with its input and output as bytes -/

namespace Seiren

/-- What the program finds when it starts. -/
structure World where
  /-- `std::env::args()`, starting with the name of the program.  (Arguments that are not Unicode, on which `args` panics, are
  left out.) -/
  args : List Str
  /-- The contents of the files; `none` if reading a file fails. -/
  file : Str → Option (List UInt8)
  /-- The contents of standard input; `none` if reading it fails. -/
  stdin : Option (List UInt8)

/-- How the process ends: `main` returns `Ok` (status 0) or `Err` (status 1), or it panics (status 101). -/
inductive Exit where
  | success
  | failure
  | panic
  deriving DecidableEq, Repr

/-- What the program leaves behind. -/
structure Outcome where
  /-- main.rs:11, 18: the name under which the source is reported -/
  filename : Str
  /-- main.rs:29-105: the errors reported on stderr -/
  errors : List SimpleError
  /-- main.rs:125-130: the bytes written to standard output -/
  stdout : List UInt8
  exit : Exit
  deriving DecidableEq, Repr

/-- main.rs:19, 22: `read_to_string` fails if reading fails or the bytes are not UTF-8; a byte order mark is not removed. -/
def readToString (input : Option (List UInt8)) : Option Str := input.bind decodeUtf8

/-- main.rs:26-133.  (Nothing is written before the whole text has been made, so a panic leaves standard output empty.  Errors
while writing to stdout or stderr: see Model/Stdout.) -/
def finishMain (q : Queue) (esc : Str → Str) (filename : Str) : Option Str → Outcome
  | none => ⟨filename, [], [], .failure⟩
  | some src =>
    match stdoutText q esc src with
    | some text => ⟨filename, errorsOf src, encodeUtf8 text, .success⟩
    | none => ⟨filename, errorsOf src, [], .panic⟩

/-- main.rs:10-134 `main`. -/
def runProgram (q : Queue) (esc : Str → Str) (w : World) : Outcome :=
  match w.args[1]? with
  | some path => finishMain q esc path (readToString (w.file path))
  | none => finishMain q esc c!"(stdin)" (readToString w.stdin)

end Seiren
