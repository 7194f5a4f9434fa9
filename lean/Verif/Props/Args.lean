import Verif.Model.Args
import Verif.Props.Program
/-! # C93: arguments that are not Unicode -/

namespace Seiren
open Spec

/-- The bytes are no text in UTF-8. -/
def Spec.NoText (bs : List UInt8) : Prop := ∀ s, ¬ TextBytes s bs

theorem decode_none_iff (bs : List UInt8) : decodeUtf8 bs = none ↔ NoText bs := by
  constructor
  · intro h s hs
    have := (C77_utf8.1 bs s).mpr hs
    simp [readToString, h] at this
  · intro h
    cases hd : decodeUtf8 bs with
    | none => rfl
    | some s => exact absurd ((C77_utf8.1 bs s).mp (by simp [readToString, hd])) (h s)

/-- **C93.** Without arguments beyond the name of the program, the program reads standard input, whatever that name is.  With some, only
the first of them and perhaps the name matter: if one of them is not Unicode (of the name: if the standard library looks at it), the
program panics at once; otherwise it does what it does for that text as its only argument (C76).  The remaining arguments may be anything. -/
theorem C93_arguments (q : Queue) (esc : Str → Str) (readsFirst : Bool) (file : Str → Option (List UInt8)) (stdin : Option (List UInt8)) :
    (∀ as : List (List UInt8), as.length ≤ 1 → runRaw q esc readsFirst ⟨as, file, stdin⟩ = runProgram q esc ⟨[], file, stdin⟩) ∧
    (∀ a0 a1 as, NoText a1 ∨ (NoText a0 ∧ readsFirst = true) →
      runRaw q esc readsFirst ⟨a0 :: a1 :: as, file, stdin⟩ = ⟨c!"(stdin)", [], [], .panic⟩) ∧
    ∀ a0 a1 as path, TextBytes path a1 → ¬ (NoText a0 ∧ readsFirst = true) →
      ∀ name, runRaw q esc readsFirst ⟨a0 :: a1 :: as, file, stdin⟩ = runProgram q esc ⟨[name, path], file, stdin⟩ := by
  refine ⟨?_, ?_, ?_⟩
  · intro as h
    simp [runRaw, runProgram, show ¬ 2 ≤ as.length by omega]
  · intro a0 a1 as h
    have hs : secondArg readsFirst (a0 :: a1 :: as) = none := by
      rw [secondArg]
      rcases h with h | ⟨h, rfl⟩
      · split
        · rfl
        · exact (decode_none_iff _).mpr h
      · simp [(decode_none_iff _).mpr h]
    simp [runRaw, hs]
  · intro a0 a1 as path h h0 name
    have h1 : decodeUtf8 a1 = some path := by simpa [readToString] using (C77_utf8.1 a1 path).mpr h
    have hs : secondArg readsFirst (a0 :: a1 :: as) = some path := by
      rw [secondArg, if_neg, h1]
      simp only [Bool.and_eq_true, Option.isNone_iff_eq_none, decode_none_iff]
      exact fun h => h0 ⟨h.2, h.1⟩
    simp [runRaw, hs, runProgram]

/-- **C93**, the cause of panics: with valid arguments a panic is due to the drawing (C86), so an exit status 101 with a readable source
that contains no module means that an argument is not Unicode. -/
theorem C93_panic (q : Queue) (esc : Str → Str) (readsFirst : Bool) (w : RawWorld) (h : (runRaw q esc readsFirst w).exit = .panic) :
    (∃ a0 a1 as, w.args = a0 :: a1 :: as ∧ (NoText a1 ∨ (NoText a0 ∧ readsFirst = true))) ∨
    ∃ bs src m e, ((w.args.length ≤ 1 ∧ w.stdin = some bs) ∨
        ∃ a0 a1 as path, w.args = a0 :: a1 :: as ∧ TextBytes path a1 ∧ w.file path = some bs) ∧
      TextBytes src bs ∧ Contains src m ∧ drawModule q m = .error e := by
  have key : ∀ (w' : World) (name : Str) (input : Option (List UInt8)), InputOf w' name input → (runProgram q esc w').exit = .panic →
      ∃ bs src m e, input = some bs ∧ TextBytes src bs ∧ Contains src m ∧ drawModule q m = .error e := by
    intro w' name input hin hp
    obtain ⟨h1, h2⟩ := C76_program q esc w' name input hin
    by_cases hr : ∃ bs s, input = some bs ∧ TextBytes s bs
    · obtain ⟨bs, s, hb, hs⟩ := hr
      obtain ⟨-, -, h3, h4⟩ := h2 bs s hb hs
      by_cases hm : ∃ m, Contains s m
      · obtain ⟨m, hm⟩ := hm
        cases hd : drawModule q m with
        | ok el =>
          have := ((h4 m hm).1 el hd).2
          rw [hp] at this; cases this
        | error e => exact ⟨bs, s, m, e, hb, hs, hm, hd⟩
      · have := (h3 hm).2
        rw [hp] at this; cases this
    · rw [h1 hr] at hp; cases hp
  obtain ⟨args, file, stdin⟩ := w
  obtain ⟨c1, c2, c3⟩ := C93_arguments q esc readsFirst file stdin
  rcases args with _ | ⟨a0, _ | ⟨a1, as⟩⟩
  · rw [c1 _ (by simp)] at h
    obtain ⟨bs, src, m, e, hb, h5⟩ := key _ _ _ (.stdin (by simp)) h
    exact .inr ⟨bs, src, m, e, .inl ⟨by simp, hb⟩, h5⟩
  · rw [c1 _ (by simp)] at h
    obtain ⟨bs, src, m, e, hb, h5⟩ := key _ _ _ (.stdin (by simp)) h
    exact .inr ⟨bs, src, m, e, .inl ⟨by simp, hb⟩, h5⟩
  · by_cases h0 : NoText a0 ∧ readsFirst = true
    · exact .inl ⟨a0, a1, as, rfl, .inr h0⟩
    · by_cases h1 : ∃ path, TextBytes path a1
      · obtain ⟨path, h1⟩ := h1
        rw [c3 a0 a1 as path h1 h0 []] at h
        obtain ⟨bs, src, m, e, hb, h5⟩ := key _ _ _ (.file (path := path) rfl) h
        exact .inr ⟨bs, src, m, e, .inr ⟨a0, a1, as, path, rfl, h1, hb⟩, h5⟩
      · exact .inl ⟨a0, a1, as, rfl, .inl fun s hs => h1 ⟨s, hs⟩⟩

/-- A byte that occurs in no text; a name of two bytes, one character. -/
example : NoText [0xFF] ∧ TextBytes c!"é" [0xC3, 0xA9] :=
  ⟨(decode_none_iff _).mp (by decide), (C77_utf8.1 _ _).mp (by decide)⟩

/-- One world, three arguments: the third is not looked at; without the second, nothing is read. -/
example : (runRaw BinHeap.queue id true ⟨[[], [0x61], [0xFF]], fun p => if p = c!"a" then some [0x7B] else none, none⟩).exit = .success ∧
    (runRaw BinHeap.queue id true ⟨[[], [0xFF], [0x61]], fun p => if p = c!"a" then some [0x7B] else none, none⟩).exit = .panic ∧
    (runRaw BinHeap.queue id true ⟨[[0xFF], [0x61]], fun p => if p = c!"a" then some [0x7B] else none, none⟩).exit = .panic ∧
    (runRaw BinHeap.queue id false ⟨[[0xFF], [0x61]], fun p => if p = c!"a" then some [0x7B] else none, none⟩).exit = .success ∧
    (runRaw BinHeap.queue id true ⟨[[0xFF]], fun _ => none, some [0x7B]⟩).exit = .success := by decide +kernel

end Seiren
