import Verif.Model.Program
/-! # Writing to standard output and standard error

main.rs:125-130 gives a lock of `std::io::stdout()` to the renderer, which calls `write_all` once (renderer.rs:214); nothing is flushed.
`Stdout` is a `LineWriter` over the file descriptor.  Here the parts of `std::io` that are used are modelled, over a
device that takes a limited number of bytes (a full disk, or a pipe that the other side closes). -/

namespace Seiren

/-- A device that takes `room` more bytes, and what was written to it. -/
structure Device where
  room : Nat
  written : List UInt8
  deriving DecidableEq, Repr

/-- std::io `Write::write_all` of the file descriptor: writes what the device takes; an error if that is not everything.
(`EINTR` is retried by std.  A closed descriptor is not modelled: std opens `/dev/null` in its place.) -/
def Device.writeAll (d : Device) (bs : List UInt8) : Device × Bool :=
  (⟨d.room - bs.length, d.written ++ bs.take d.room⟩, decide (bs.length ≤ d.room))

/-- std::io::buffered `BufWriter`: the bytes not written yet, and the device. -/
structure BufWriter where
  buffer : List UInt8
  device : Device
  deriving DecidableEq, Repr

/-- std::io::buffered::linewriter `LineWriter::new`: the capacity of the buffer. -/
def bufferCapacity : Nat := 1024

/-- std::io::buffered::bufwriter `BufWriter::flush_buf`: what was written is removed from the buffer, also if there is an error. -/
def BufWriter.flushBuf (b : BufWriter) : BufWriter × Bool :=
  let (device, ok) := b.device.writeAll b.buffer
  (⟨b.buffer.drop b.device.room, device⟩, ok)

/-- std::io::buffered::bufwriter `BufWriter::write_all` and `write_all_cold`. -/
def BufWriter.writeAll (b : BufWriter) (bs : List UInt8) : BufWriter × Bool :=
  if bs.length < bufferCapacity - b.buffer.length then (⟨b.buffer ++ bs, b.device⟩, true)
  else
    let (b, ok) := if bufferCapacity - b.buffer.length < bs.length then b.flushBuf else (b, true)
    if !ok then (b, false)
    else if bufferCapacity ≤ bs.length then
      let (device, ok) := b.device.writeAll bs
      (⟨b.buffer, device⟩, ok)
    else (⟨b.buffer ++ bs, b.device⟩, true)

/-- std::io::buffered::linewritershim: `memrchr(b'\n', buf)` and `split_at`: the bytes up to the last newline, and those
behind it; `none` if there is no newline. -/
def splitLastLine (bs : List UInt8) : Option (List UInt8 × List UInt8) :=
  let tail := (bs.reverse.takeWhile (· != 10)).reverse
  if tail.length = bs.length then none else some (bs.take (bs.length - tail.length), tail)

/-- std::io::buffered::linewritershim `LineWriterShim::write_all`. -/
def BufWriter.writeLines (b : BufWriter) (bs : List UInt8) : BufWriter × Bool :=
  match splitLastLine bs with
  | none =>
    -- `flush_if_completed_line`
    let (b, ok) := if b.buffer.getLast? = some 10 then b.flushBuf else (b, true)
    if !ok then (b, false) else b.writeAll bs
  | some (lines, tail) =>
    let (b, ok) :=
      if b.buffer.isEmpty then
        let (device, ok) := b.device.writeAll lines
        (⟨b.buffer, device⟩, ok)
      else
        let (b, ok) := b.writeAll lines
        if !ok then (b, false) else b.flushBuf
    if !ok then (b, false) else b.writeAll tail

/-- std::rt `cleanup` at the end of the process, also after a panic: what is left in the buffer is written, errors are ignored. -/
def BufWriter.atExit (b : BufWriter) : List UInt8 := b.flushBuf.1.device.written

/-- What the devices take: how many reports can be printed to standard error, and how many bytes can be written to standard
output. -/
structure Devices where
  reports : Nat
  room : Nat

/-- main.rs:26-133, with errors while writing: `eprint(…).unwrap()` (main.rs:101-104) panics at the first report that cannot be
printed, `expect` (main.rs:127-130) if the drawing cannot be written.  (A report that is printed in part is not counted in
`errors`.) -/
def finishMainOn (q : Queue) (esc : Str → Str) (d : Devices) (filename : Str) : Option Str → Outcome
  | none => ⟨filename, [], [], .failure⟩
  | some src =>
    if d.reports < (errorsOf src).length then ⟨filename, (errorsOf src).take d.reports, [], .panic⟩
    else
      match (runMain q src).drawing with
      | none => ⟨filename, errorsOf src, [], .success⟩
      | some (.error _) => ⟨filename, errorsOf src, [], .panic⟩
      | some (.ok e) =>
        let (out, ok) := (BufWriter.mk [] ⟨d.room, []⟩).writeLines (encodeUtf8 (svgText esc e))
        ⟨filename, errorsOf src, out.atExit, if ok then .success else .panic⟩

/-- main.rs:10-134 `main`, with errors while writing. -/
def runProgramOn (q : Queue) (esc : Str → Str) (w : World) (d : Devices) : Outcome :=
  match w.args[1]? with
  | some path => finishMainOn q esc d path (readToString (w.file path))
  | none => finishMainOn q esc d c!"(stdin)" (readToString w.stdin)

end Seiren
