import Verif.Model.Program
/-! # Model of `main` (`src/main.rs`) with arguments as bytes -/

namespace Seiren

/-- What the operating system hands over: as `World`, but the arguments may be any bytes (`OsString` on Unix). -/
structure RawWorld where
  args : List (List UInt8)
  file : Str → Option (List UInt8)
  stdin : Option (List UInt8)

/-- main.rs:15-16 `args.nth(1).unwrap()`; `none` if it panics.  `std::env::Args::next` makes a `String` of the argument and panics if
it is not Unicode.  Whether `nth` looks at the argument it skips depends on the version of std (`readsFirst`): the default `nth` calls
`next` for it, later versions pass over it. -/
def secondArg (readsFirst : Bool) : List (List UInt8) → Option Str
  | a0 :: a1 :: _ => if readsFirst && (decodeUtf8 a0).isNone then none else decodeUtf8 a1
  | _ => none

/-- main.rs:10-134 `main`, from the arguments on.  `args.len()` (main.rs:15) counts them without looking at them. -/
def runRaw (q : Queue) (esc : Str → Str) (readsFirst : Bool) (w : RawWorld) : Outcome :=
  if w.args.length ≥ 2 then
    match secondArg readsFirst w.args with
    | some path => finishMain q esc path (readToString (w.file path))
    | none => ⟨c!"(stdin)", [], [], .panic⟩
  else finishMain q esc c!"(stdin)" (readToString w.stdin)

end Seiren
