import Verif.Props.Stdout
/-! # C82: writing in several pieces

The program writes the drawing with a single call.  The same bytes reach the device however they are divided into calls: the
`LineWriter` of standard output drops and repeats nothing. -/

namespace Seiren
open Spec

/-- Write the pieces one after the other, up to the first error. -/
def Spec.writePieces (b : BufWriter) : List (List UInt8) → BufWriter × Bool
  | [] => (b, true)
  | p :: ps =>
    match b.writeLines p with
    | (b, true) => writePieces b ps
    | (b, false) => (b, false)

/-- All of `d` is written or in the buffer; the device took `room` bytes at first. -/
def BufWriter.Holds (b : BufWriter) (room : Nat) (d : List UInt8) : Prop :=
  b.device.written ++ b.buffer = d ∧ b.device.written.length + b.device.room = room

/-- The device is full, and it holds the first bytes of `d`. -/
def BufWriter.Full (b : BufWriter) (room : Nat) (d : List UInt8) : Prop :=
  b.device.written = d.take room ∧ b.device.room = 0 ∧ room < d.length

theorem BufWriter.Full.more {b : BufWriter} {room : Nat} {d : List UInt8} (h : b.Full room d) (e : List UInt8) : b.Full room (d ++ e) := by
  obtain ⟨h1, h2, h3⟩ := h
  refine ⟨?_, h2, by rw [List.length_append]; omega⟩
  rw [h1, List.take_append, show room - d.length = 0 by omega]
  simp

/-- What a write does. -/
def Took (room : Nat) (d : List UInt8) (r : BufWriter × Bool) : Prop :=
  (r.2 = true → r.1.Holds room d) ∧ (r.2 = false → r.1.Full room d)

theorem took_ok {b : BufWriter} {room : Nat} {d : List UInt8} (h : b.Holds room d) : Took room d (b, true) :=
  ⟨fun _ => h, fun h => by cases h⟩

theorem took_fail {b : BufWriter} {room : Nat} {d : List UInt8} (h : b.Full room d) : Took room d (b, false) :=
  ⟨fun h => by (cases h), fun _ => h⟩

theorem device_full {dev : Device} {bs d : List UInt8} {room : Nat} {rest : List UInt8} (h1 : dev.written ++ bs = d)
    (h2 : dev.written.length + dev.room = room) (h : ¬ bs.length ≤ dev.room) : (BufWriter.mk rest (dev.writeAll bs).1).Full room d := by
  subst h1 h2
  refine ⟨?_, ?_, ?_⟩
  · simp only [Device.writeAll]
    rw [List.take_append, Nat.add_sub_cancel_left, List.take_of_length_le (i := dev.written.length + dev.room) (by omega)]
  · simp only [Device.writeAll]; omega
  · rw [List.length_append]; omega

theorem device_holds {dev : Device} {bs d : List UInt8} {room : Nat} (h1 : dev.written ++ bs = d)
    (h2 : dev.written.length + dev.room = room) (h : bs.length ≤ dev.room) : (BufWriter.mk [] (dev.writeAll bs).1).Holds room d := by
  refine ⟨?_, ?_⟩
  · simp only [Device.writeAll, List.append_nil]
    rw [List.take_of_length_le h, h1]
  · simp only [Device.writeAll, List.length_append, List.length_take]
    omega

theorem flushBuf_took {b : BufWriter} {room : Nat} {d : List UInt8} (h : b.Holds room d) :
    Took room d b.flushBuf ∧ (b.flushBuf.2 = true → b.flushBuf.1.buffer = []) := by
  obtain ⟨h1, h2⟩ := h
  by_cases hl : b.buffer.length ≤ b.device.room
  · have hd : b.buffer.drop b.device.room = [] := List.drop_eq_nil_of_le hl
    have e : b.flushBuf = (⟨[], (b.device.writeAll b.buffer).1⟩, true) := by
      simp [BufWriter.flushBuf, Device.writeAll, hl, hd]
    rw [e]
    exact ⟨took_ok (device_holds h1 h2 hl), fun _ => rfl⟩
  · have e : b.flushBuf = (⟨b.buffer.drop b.device.room, (b.device.writeAll b.buffer).1⟩, false) := by
      simp [BufWriter.flushBuf, Device.writeAll, hl]
    rw [e]
    exact ⟨took_fail (device_full h1 h2 hl), fun h => by cases h⟩

theorem writeAll_took {b : BufWriter} {room : Nat} {d : List UInt8} (h : b.Holds room d) (bs : List UInt8) :
    Took room (d ++ bs) (b.writeAll bs) := by
  have keep : ∀ {b : BufWriter}, b.Holds room d → (BufWriter.mk (b.buffer ++ bs) b.device).Holds room (d ++ bs) := by
    rintro b ⟨h1, h2⟩
    exact ⟨by simp only; rw [← List.append_assoc, h1], h2⟩
  unfold BufWriter.writeAll
  split
  · exact took_ok (keep h)
  next hcap =>
    -- after the buffer was written, if need be
    have rest : ∀ {b : BufWriter}, b.Holds room d → (bufferCapacity ≤ bs.length → b.buffer = []) →
        Took room (d ++ bs) (if bufferCapacity ≤ bs.length then (⟨b.buffer, (b.device.writeAll bs).1⟩, (b.device.writeAll bs).2)
          else (⟨b.buffer ++ bs, b.device⟩, true)) := by
      intro b hb hempty
      split
      next hbig =>
        obtain ⟨h1, h2⟩ := hb
        rw [hempty hbig] at h1 ⊢
        rw [List.append_nil] at h1
        constructor
        · intro hok
          exact device_holds (by rw [h1]) h2 (by simpa [Device.writeAll] using hok)
        · intro hok
          exact device_full (by rw [h1]) h2 (by simpa [Device.writeAll] using hok)
      · exact took_ok (keep hb)
    by_cases hroom : bufferCapacity - b.buffer.length < bs.length
    · rw [if_pos hroom]
      obtain ⟨⟨f1, f2⟩, f3⟩ := flushBuf_took h
      cases hf : b.flushBuf with
      | mk b' ok =>
        rw [hf] at f1 f2 f3
        cases ok with
        | true => simpa using rest (f1 rfl) fun _ => f3 rfl
        | false =>
          simp only [Bool.not_false, if_true]
          exact took_fail ((f2 rfl).more bs)
    · rw [if_neg hroom]
      simp only [Bool.not_true, Bool.false_eq_true, if_false]
      exact rest h fun hbig => List.length_eq_zero_iff.mp (by unfold bufferCapacity at *; omega)

theorem writeLines_took {b : BufWriter} {room : Nat} {d : List UInt8} (h : b.Holds room d) (bs : List UInt8) :
    Took room (d ++ bs) (b.writeLines bs) := by
  have next : ∀ {r : BufWriter × Bool} {d bs : List UInt8}, Took room d r →
      Took room (d ++ bs) (if !r.2 then (r.1, false) else r.1.writeAll bs) := by
    rintro ⟨b, ok⟩ d bs ⟨h1, h2⟩
    cases ok with
    | true => simpa using writeAll_took (h1 rfl) bs
    | false =>
      simp only [Bool.not_false, if_true]
      exact took_fail ((h2 rfl).more bs)
  unfold BufWriter.writeLines
  split
  · refine next (r := if b.buffer.getLast? = some 10 then b.flushBuf else (b, true)) ?_
    split
    · exact (flushBuf_took h).1
    · exact took_ok (h)
  next lines tail hsplit =>
    rw [splitLastLine_some hsplit, ← List.append_assoc]
    refine next (r := if b.buffer.isEmpty then (⟨b.buffer, (b.device.writeAll lines).1⟩, (b.device.writeAll lines).2)
      else if !(b.writeAll lines).2 then ((b.writeAll lines).1, false) else (b.writeAll lines).1.flushBuf) ?_
    split
    next hempty =>
      obtain ⟨h1, h2⟩ := h
      rw [List.isEmpty_iff] at hempty
      rw [hempty, List.append_nil] at h1
      simp only [hempty]
      constructor
      · intro hok
        exact device_holds (by rw [h1]) h2 (by simpa [Device.writeAll] using hok)
      · intro hok
        exact device_full (by rw [h1]) h2 (by simpa [Device.writeAll] using hok)
    · have hw := writeAll_took h lines
      generalize b.writeAll lines = r at hw
      obtain ⟨b', ok⟩ := r
      cases ok with
      | true => exact (flushBuf_took (hw.1 rfl)).1
      | false => exact took_fail (hw.2 rfl)

theorem writePieces_took {b : BufWriter} {room : Nat} {d : List UInt8} (h : b.Holds room d) (ps : List (List UInt8)) :
    Took room (d ++ ps.flatten) (writePieces b ps) := by
  induction ps generalizing b d with
  | nil => exact took_ok (by simpa using h)
  | cons p ps ih =>
    have hw := writeLines_took h p
    unfold writePieces
    rw [List.flatten_cons, ← List.append_assoc]
    cases hr : b.writeLines p with
    | mk b' ok =>
      rw [hr] at hw
      cases ok with
      | true => exact ih (hw.1 rfl)
      | false => exact took_fail ((hw.2 rfl).more _)

/-- **C82, pieces.** However the bytes are divided into calls of `write_all`, up to the first error: when the process ends, the device holds
the first bytes, as many as it takes, each of them once and in order.  There is no error if it takes all of them. -/
theorem C82_pieces (room : Nat) (ps : List (List UInt8)) :
    (writePieces ⟨[], ⟨room, []⟩⟩ ps).1.atExit = ps.flatten.take room ∧
      (ps.flatten.length ≤ room → (writePieces ⟨[], ⟨room, []⟩⟩ ps).2 = true) := by
  have h := writePieces_took (b := ⟨[], ⟨room, []⟩⟩) (room := room) (d := []) ⟨rfl, Nat.zero_add _⟩ ps
  rw [List.nil_append] at h
  cases hr : writePieces ⟨[], ⟨room, []⟩⟩ ps with
  | mk b ok =>
    rw [hr] at h
    cases ok with
    | true =>
      obtain ⟨h1, h2⟩ := h.1 rfl
      refine ⟨?_, fun _ => rfl⟩
      rw [← h1, ← h2, List.take_append, List.take_of_length_le (by omega), Nat.add_sub_cancel_left]
      rfl
    | false =>
      obtain ⟨h1, h2, h3⟩ := h.2 rfl
      simp only at h1 h2
      refine ⟨?_, fun hle => by omega⟩
      simp [BufWriter.atExit, BufWriter.flushBuf, Device.writeAll, h2, h1]

set_option maxRecDepth 100000 in
/-- Three pieces, the first one of which stays in the buffer, on a device that takes four bytes. -/
example : writePieces ⟨[], ⟨4, []⟩⟩ [[1, 2], [3, 10, 4], [5]] = (⟨[4, 5], ⟨0, [1, 2, 3, 10]⟩⟩, true) ∧
    writePieces ⟨[], ⟨3, []⟩⟩ [[1, 2], [3, 10, 4], [5]] = (⟨[10], ⟨0, [1, 2, 3]⟩⟩, false) := by decide +kernel

end Seiren
