import Verif.Model.Whole
import Verif.Props.Args
import Verif.Props.Stdout
import Verif.Props.Storage
import Verif.Props.LexCombinators
import Verif.Props.ParsePolicy
import Verif.Props.ParseErrors
/-! # C98: the whole program, with every part in its most detailed form -/

namespace Seiren
open Spec

/-! ## Specification -/

/-- The source of a run and the name it is reported under, for arguments given as bytes: standard input if there is at most one argument
(the name of the program), otherwise the file named by the second, which must be Unicode. -/
inductive Spec.RawInput (readsFirst : Bool) (w : RawWorld) : Str → Option (List UInt8) → Prop where
  | stdin (h : w.args.length ≤ 1) : RawInput readsFirst w c!"(stdin)" w.stdin
  | file {a0 a1 : List UInt8} {as : List (List UInt8)} {path : Str} (h : w.args = a0 :: a1 :: as) (h1 : TextBytes path a1)
      (h0 : NoText a0 → readsFirst = false) : RawInput readsFirst w path (w.file path)

/-- An argument that the program looks at is not Unicode. -/
def Spec.BadArgument (readsFirst : Bool) (w : RawWorld) : Prop :=
  ∃ a0 a1 as, w.args = a0 :: a1 :: as ∧ (NoText a1 ∨ (NoText a0 ∧ readsFirst = true))

/-- The same error, up to the listing of a set. -/
def Spec.SameError : SimpleError → SimpleError → Prop
  | .unexpected s f e, .unexpected s' f' e' => s = s' ∧ f = f' ∧ ∀ t, t ∈ e ↔ t ∈ e'
  | .custom s t, .custom s' t' => s = s' ∧ t = t'
  | _, _ => False

/-- The same errors, each as often, in any order. -/
def Spec.SameErrors (a b : List SimpleError) : Prop := ∃ mid, a.Perm mid ∧ List.Forall₂ SameError mid b

/-- The text written for a module: its drawing, computed with exact numbers, lists and a plain heap; if there is no table, a picture that
is always the same. -/
def Spec.TextFor (escape : Str → Str) (m : Module) (text : Str) : Prop :=
  (definitions m.entries = [] ∧ text = emptyText) ∨
  (definitions m.entries ≠ [] ∧ ∃ el, drawModule BinHeap.queue m = .ok el ∧ text = svgText escape el)

/-! ## Reading -/

theorem SameError.refl (e : SimpleError) : SameError e e := by
  cases e <;> simp [SameError]

theorem parseWhole_module (l : Libraries) (src : Str) : (parseWhole l src).1 = (parse src).1 := by
  have h := (C84_tokenizer l.lexer src).1
  have h' := (C85_policies l.choice src).1
  have e1 : (parseWhole l src).1 = (parseReportsWith l.choice src).1 := by
    unfold parseWhole parseReportsWith
    rcases hk : kParseRecovery l.lexer src with ⟨ts, es⟩
    rcases ht : tokenize src with ⟨ts', es'⟩
    rw [hk, ht] at h
    obtain rfl : ts = ts' := h
    cases ts with
    | none => rfl
    | some ts =>
      simp only
      cases gModule l.choice (ts.map Prod.fst) <;> rfl
  rw [e1, h', (C62_one_report src).1]

theorem parseWhole_errors (l : Libraries) (src : Str) : SameErrors (parseWhole l src).2 (errorsOf src) := by
  have h := (C84_tokenizer l.lexer src).1
  have hp := (C84_tokenizer l.lexer src).2.1
  have h' := (C85_policies l.choice src).2
  have e1 : (parseWhole l src).2 = (kParseRecovery l.lexer src).2.map LexReport.simple ++ (parseReportsWith l.choice src).2.map ParseReport.simple := by
    unfold parseWhole parseReportsWith
    rcases hk : kParseRecovery l.lexer src with ⟨ts, es⟩
    rcases ht : tokenize src with ⟨ts', es'⟩
    rw [hk, ht] at h
    obtain rfl : ts = ts' := h
    cases ts with
    | none => rfl
    | some ts =>
      simp only
      cases gModule l.choice (ts.map Prod.fst) <;> rfl
  rw [e1]
  refine ⟨(lexReports src).map LexReport.simple ++ (parseReportsWith l.choice src).2.map ParseReport.simple,
    (hp.map _).append_right _, ?_⟩
  refine List.rel_append (List.forall₂_same.mpr fun e _ => SameError.refl e) ?_
  rw [List.forall₂_map_left_iff, List.forall₂_map_right_iff]
  refine h'.imp ?_
  rintro a b ⟨h1, h2, h3⟩
  refine ⟨h1, by rw [h2], fun t => ?_⟩
  simp only [List.mem_map]
  exact ⟨fun ⟨x, hx, e⟩ => ⟨x, (h3 x).mp hx, e⟩, fun ⟨x, hx, e⟩ => ⟨x, (h3 x).mpr hx, e⟩⟩

/-! ## Drawing -/

theorem drawModulePgM_empty (ovf : Rat → Rat) (w : Nat → Nat) (q : Queue) (m : Module) (h : definitions m.entries = []) :
    drawModulePgM (roundOr ovf) sqrtF32 w q m = noFault (drawModuleM (roundOr ovf) sqrtF32 w q m) := by
  refine drawModulePgM_eq (g' := .new) _ _ _ _ _ ?_ ?_ ?_
  · rw [intoMir_empty m h]; exact ⟨by decide, by decide⟩
  · rw [intoMir_empty m h]; rfl
  · exact ⟨by decide, by decide⟩

theorem drawWhole_text (l : Libraries) (src : Str) (m : Module) (hm : Contains src m) (hn : src.length ≤ 199000) :
    (∀ text, TextFor l.escape m text → drawWhole l m = some text) ∧
    (∀ x, drawModule BinHeap.queue m = .error x → drawWhole l m = none) := by
  by_cases hne : definitions m.entries = []
  · have he := C79_empty l.overflow l.cost HoleHeap.queue l.escape src m hm hne
    have hd : drawWhole l m = some emptyText := by
      unfold stdoutTextM at he
      rw [(parse_contains src m).mpr hm] at he
      unfold drawWhole
      rw [drawModulePgM_empty _ _ _ _ hne]
      simp only at he
      cases hx : drawModuleM (roundOr l.overflow) sqrtF32 l.cost HoleHeap.queue m with
      | error e => rw [hx] at he; cases he
      | ok el => rw [hx] at he; exact he
    refine ⟨?_, ?_⟩
    · rintro text (⟨-, rfl⟩ | ⟨h, -⟩)
      · exact hd
      · exact absurd hne h
    · intro x hx
      unfold drawModule at hx
      rw [intoMir_empty m hne] at hx
      cases hx
  · have hp := C97_machine l.overflow l.cost l.cost_eq src m hm hn hne
    have hh : picHeight (lineNumbers (definitions m.entries)) ≤ 2 ^ 22 := by
      refine (C88_sizes src m hm).2.1.trans ?_
      have : (src.length : Rat) ≤ 199000 := by exact_mod_cast hn
      norm_num
      linarith
    unfold drawWhole
    rw [hp]
    refine ⟨?_, ?_⟩
    · rintro text (⟨h, -⟩ | ⟨-, el, hel, rfl⟩)
      · exact absurd h hne
      · rw [hel]
        exact congrArg some (svgTextM_eq BinHeap.lawful m hne hh el hel l.escape)
    · intro x hx
      rw [hx]
      rfl

theorem textFor_or (escape : Str → Str) (m : Module) :
    (∃ text, TextFor escape m text) ∨ definitions m.entries ≠ [] ∧ ∃ x, drawModule BinHeap.queue m = .error x := by
  by_cases hne : definitions m.entries = []
  · exact .inl ⟨_, .inl ⟨hne, rfl⟩⟩
  · cases h : drawModule BinHeap.queue m with
    | ok el => exact .inl ⟨_, .inr ⟨hne, el, h, rfl⟩⟩
    | error x => exact .inr ⟨hne, x, rfl⟩

theorem textFor_end {escape : Str → Str} {m : Module} {text : Str} (h : TextFor escape m text) : ∃ s, text = '<' :: (s ++ c!"\n</svg>") := by
  rcases h with ⟨-, rfl⟩ | ⟨-, el, hel, rfl⟩
  · exact ⟨c!"svg viewBox=\"0, 0, 1160, -340282350000000000000000000000000000000\" xmlns=\"http://www.w3.org/2000/svg\">\n<rect fill=\"#1C1C1C\" height=\"100%\" width=\"100%\"/>\n<defs/>", rfl⟩
  · exact svgText_end hel escape

/-! ## C98 -/

theorem finishWhole_spec (l : Libraries) (d : Devices) (name src : Str) (hn : src.length ≤ 199000) :
    ∃ errors, SameErrors errors (errorsOf src) ∧
      (d.reports < errors.length → finishWhole l d name (some src) = ⟨name, errors.take d.reports, [], .panic⟩) ∧
      (errors.length ≤ d.reports →
        ((¬ ∃ m, Contains src m) → finishWhole l d name (some src) = ⟨name, errors, [], .success⟩) ∧
        ∀ m, Contains src m →
          (∀ x, drawModule BinHeap.queue m = .error x → finishWhole l d name (some src) = ⟨name, errors, [], .panic⟩) ∧
          ∀ text bytes, TextFor l.escape m text → TextBytes text bytes →
            (bytes.length ≤ d.room + 6 → finishWhole l d name (some src) = ⟨name, errors, bytes.take d.room, .success⟩) ∧
            (d.room + 6 < bytes.length → finishWhole l d name (some src) = ⟨name, errors, bytes.take d.room, .panic⟩)) := by
  refine ⟨(parseWhole l src).2, parseWhole_errors l src, ?_, ?_⟩
  · intro h
    simp [finishWhole, h]
  · intro h
    have hnot : ¬ d.reports < (parseWhole l src).2.length := by omega
    refine ⟨?_, ?_⟩
    · intro hno
      have : (parseWhole l src).1 = none := by
        rw [parseWhole_module]
        cases hp : (parse src).1 with
        | none => rfl
        | some m => exact absurd ⟨m, (parse_contains src m).mp hp⟩ hno
      simp [finishWhole, this, hnot]
    · intro m hm
      have hast : (parseWhole l src).1 = some m := by rw [parseWhole_module]; exact (parse_contains src m).mpr hm
      obtain ⟨h1, h2⟩ := drawWhole_text l src m hm hn
      refine ⟨?_, ?_⟩
      · intro x hx
        simp [finishWhole, hast, hnot, h2 x hx]
      · intro text bytes ht hb
        have hb' : bytes = encodeUtf8 text := (textBytes_iff _ _).mp hb
        subst hb'
        obtain ⟨s, hs⟩ := textFor_end ht
        have e : encodeUtf8 text = encodeUtf8 ('<' :: s) ++ 10 :: [60, 47, 115, 118, 103, 62] := by
          rw [hs, ← List.cons_append, encodeUtf8_append]; rfl
        have hok := writeLines_ok d.room (encodeUtf8 ('<' :: s)) [60, 47, 115, 118, 103, 62] (by decide) (by decide)
        have hat := writeLines_atExit d.room (encodeUtf8 text)
        rw [← e] at hok
        have hl : (encodeUtf8 text).length = (encodeUtf8 ('<' :: s)).length + 7 := by rw [e]; simp
        refine ⟨fun hle => ?_, fun hlt => ?_⟩
        · have := hok.mpr (by omega)
          simp [finishWhole, hast, hnot, h1 text ht, this, hat]
        · have : ((BufWriter.mk [] ⟨d.room, []⟩).writeLines (encodeUtf8 text)).2 = false := by
            rw [Bool.eq_false_iff]
            intro hc
            have := hok.mp hc
            omega
          simp [finishWhole, hast, hnot, h1 text ht, this, hat]

/-- **C98.** The whole program, for all libraries, all surroundings and all devices.  An argument that is not Unicode makes it panic at once.
Otherwise it reads its source; if that cannot be read or is not UTF-8, it fails and writes nothing.  For a source of at most 199000 bytes
there are the errors of the model, in some order.  If one cannot be printed, the program panics before drawing anything.  Otherwise: without a
module, nothing is written and it succeeds; with a module that cannot be drawn (C86), nothing is written and it panics; with one that can be
drawn, as much of the text of the drawing as fits is written, and it panics exactly if more than the last six bytes are lost. -/
theorem C98_program (l : Libraries) (w : RawWorld) (d : Devices) :
    (BadArgument l.readsFirst w → runWhole l w d = ⟨c!"(stdin)", [], [], .panic⟩) ∧
    ∀ name input, RawInput l.readsFirst w name input →
      ((¬ ∃ bs src, input = some bs ∧ TextBytes src bs) → runWhole l w d = ⟨name, [], [], .failure⟩) ∧
      ∀ bs src, input = some bs → TextBytes src bs → bs.length ≤ 199000 →
        ∃ errors, SameErrors errors (errorsOf src) ∧
          (d.reports < errors.length → runWhole l w d = ⟨name, errors.take d.reports, [], .panic⟩) ∧
          (errors.length ≤ d.reports →
            ((¬ ∃ m, Contains src m) → runWhole l w d = ⟨name, errors, [], .success⟩) ∧
            ∀ m, Contains src m →
              (∀ x, drawModule BinHeap.queue m = .error x → runWhole l w d = ⟨name, errors, [], .panic⟩) ∧
              ∀ text bytes, TextFor l.escape m text → TextBytes text bytes →
                (bytes.length ≤ d.room + 6 → runWhole l w d = ⟨name, errors, bytes.take d.room, .success⟩) ∧
                (d.room + 6 < bytes.length → runWhole l w d = ⟨name, errors, bytes.take d.room, .panic⟩)) := by
  refine ⟨?_, ?_⟩
  · rintro ⟨a0, a1, as, hw, h⟩
    have hs : secondArg l.readsFirst (a0 :: a1 :: as) = none := by
      rw [secondArg]
      rcases h with h | ⟨h, h'⟩
      · split
        · rfl
        · exact (decode_none_iff _).mpr h
      · simp [(decode_none_iff _).mpr h, h']
    simp [runWhole, hw, hs]
  · intro name input hin
    have hrun : runWhole l w d = finishWhole l d name (readToString input) := by
      rcases hin with h | ⟨hw, h1, h0⟩
      · simp [runWhole, show ¬ 2 ≤ w.args.length by omega]
      · rename_i a0 a1 as
        have hd : decodeUtf8 a1 = some name := by simpa [readToString] using (C77_utf8.1 a1 name).mpr h1
        have hs : secondArg l.readsFirst (a0 :: a1 :: as) = some name := by
          rw [secondArg, if_neg, hd]
          simp only [Bool.and_eq_true, Option.isNone_iff_eq_none, decode_none_iff]
          rintro ⟨h, h'⟩
          rw [h0 h'] at h
          cases h
        simp [runWhole, hw, hs]
    refine ⟨?_, ?_⟩
    · intro hno
      have : readToString input = none := by
        cases hr : readToString input with
        | none => rfl
        | some s =>
          cases input with
          | none => cases hr
          | some bs => exact absurd ⟨bs, s, rfl, (C77_utf8.1 bs s).mp hr⟩ hno
      rw [hrun, this]
      rfl
    · rintro bs src rfl hs hn
      rw [hrun, (C77_utf8.1 bs src).mpr hs]
      exact finishWhole_spec l d name src ((textBytes_length hs).trans hn)

/-- Every run has a source, and only one, unless an argument is not Unicode. -/
theorem C98_input (readsFirst : Bool) (w : RawWorld) :
    (BadArgument readsFirst w ∧ ∀ name input, ¬ RawInput readsFirst w name input) ∨
    (¬ BadArgument readsFirst w ∧ ∃ name input, RawInput readsFirst w name input ∧
      ∀ name' input', RawInput readsFirst w name' input' → name' = name ∧ input' = input) := by
  rcases hw : w.args with _ | ⟨a0, _ | ⟨a1, as⟩⟩
  · refine .inr ⟨?_, _, _, .stdin (by simp [hw]), ?_⟩
    · rintro ⟨_, _, _, h, -⟩; rw [hw] at h; cases h
    · rintro _ _ (h | ⟨h, -, -⟩)
      · exact ⟨rfl, rfl⟩
      · rw [hw] at h; cases h
  · refine .inr ⟨?_, _, _, .stdin (by simp [hw]), ?_⟩
    · rintro ⟨_, _, _, h, -⟩; rw [hw] at h; cases h
    · rintro _ _ (h | ⟨h, -, -⟩)
      · exact ⟨rfl, rfl⟩
      · rw [hw] at h; cases h
  · by_cases hb : NoText a1 ∨ (NoText a0 ∧ readsFirst = true)
    · refine .inl ⟨⟨a0, a1, as, hw, hb⟩, ?_⟩
      rintro _ _ (h | ⟨h, h1, h0⟩)
      · rw [hw] at h; simp at h
      · rw [hw] at h
        cases h
        rcases hb with hb | ⟨hb, hr⟩
        · exact hb _ h1
        · rw [h0 hb] at hr; cases hr
    · have h1 : ∃ path, TextBytes path a1 := by
        by_contra hc
        exact hb (.inl fun s hs => hc ⟨s, hs⟩)
      obtain ⟨path, h1⟩ := h1
      refine .inr ⟨?_, path, _, .file hw h1 ?_, ?_⟩
      · rintro ⟨_, _, _, h, h'⟩
        rw [hw] at h
        cases h
        exact hb h'
      · intro h0
        cases readsFirst
        · rfl
        · exact absurd (.inr ⟨h0, rfl⟩) hb
      · rintro _ _ (h | ⟨h, h1', -⟩)
        · rw [hw] at h; simp at h
        · rw [hw] at h
          cases h
          have := C77_utf8.2.2.1 _ _ _ h1' h1
          subst this
          exact ⟨rfl, rfl⟩

theorem Spec.SameErrors.length_eq {a b : List SimpleError} (h : SameErrors a b) : a.length = b.length := by
  obtain ⟨mid, h1, h2⟩ := h
  rw [h1.length_eq, h2.length_eq]

/-- **C98, nothing else matters.** How chumsky treats errors, how the profile treats overflows and (if the first argument is Unicode) which
version of std is used change neither what is written nor the exit status nor the number of reports. -/
theorem C98_choices (l l' : Libraries) (he : l.escape = l'.escape) (w : RawWorld) (d : Devices)
    (h0 : l.readsFirst = l'.readsFirst ∨ ∀ a0 ∈ w.args.head?, ¬ NoText a0)
    (hsize : ∀ name bs, RawInput l.readsFirst w name (some bs) → bs.length ≤ 199000) :
    (runWhole l w d).filename = (runWhole l' w d).filename ∧ (runWhole l w d).stdout = (runWhole l' w d).stdout ∧
    (runWhole l w d).exit = (runWhole l' w d).exit ∧ (runWhole l w d).errors.length = (runWhole l' w d).errors.length := by
  have hbad : BadArgument l.readsFirst w → BadArgument l'.readsFirst w := by
    rintro ⟨a0, a1, as, hw, h⟩
    refine ⟨a0, a1, as, hw, ?_⟩
    rcases h0 with h0 | h0
    · rwa [← h0]
    · rcases h with h | ⟨h, -⟩
      · exact .inl h
      · exact absurd h (h0 a0 (by simp [hw]))
  obtain ⟨h1, h2⟩ := C98_program l w d
  obtain ⟨h1', h2'⟩ := C98_program l' w d
  rcases C98_input l.readsFirst w with ⟨hb, -⟩ | ⟨-, name, input, hin, -⟩
  · rw [h1 hb, h1' (hbad hb)]
    simp
  · have hin' : RawInput l'.readsFirst w name input := by
      rcases hin with h | ⟨hw, h3, h4⟩
      · exact .stdin h
      · refine .file hw h3 fun hn => ?_
        rcases h0 with h0 | h0
        · rw [← h0]; exact h4 hn
        · exact absurd hn (h0 _ (by simp [hw]))
    obtain ⟨h3, h4⟩ := h2 name input hin
    obtain ⟨h3', h4'⟩ := h2' name input hin'
    by_cases hr : ∃ bs src, input = some bs ∧ TextBytes src bs
    · obtain ⟨bs, src, rfl, hs⟩ := hr
      have hl := hsize name bs hin
      obtain ⟨es, h5, h6, h7⟩ := h4 bs src rfl hs hl
      obtain ⟨es', h5', h6', h7'⟩ := h4' bs src rfl hs hl
      have hlen : es.length = es'.length := h5.length_eq.trans h5'.length_eq.symm
      by_cases hrep : d.reports < es.length
      · rw [h6 hrep, h6' (hlen ▸ hrep)]
        simp [hlen]
      · obtain ⟨h8, h9⟩ := h7 (by omega)
        obtain ⟨h8', h9'⟩ := h7' (by omega)
        by_cases hm : ∃ m, Contains src m
        · obtain ⟨m, hm⟩ := hm
          obtain ⟨ha, hb⟩ := h9 m hm
          obtain ⟨ha', hb'⟩ := h9' m hm
          rcases textFor_or l.escape m with ⟨text, ht⟩ | ⟨-, x, hx⟩
          · obtain ⟨bytes, hby⟩ := C77_utf8.2.1 text
            by_cases hroom : bytes.length ≤ d.room + 6
            · rw [(hb text bytes ht hby).1 hroom, (hb' text bytes (he ▸ ht) hby).1 hroom]
              simp [hlen]
            · rw [(hb text bytes ht hby).2 (by omega), (hb' text bytes (he ▸ ht) hby).2 (by omega)]
              simp [hlen]
          · rw [ha x hx, ha' x hx]
            simp [hlen]
        · rw [h8 hm, h8' hm]
          simp [hlen]
    · rw [h3 hr, h3' hr]
      simp

set_option maxRecDepth 100000 in
/-- **C65 on the machine.** Sources without quoted identifiers, of at most 199000 bytes, whose reports can be printed: if anything is written
to a device with room for it, it is well-formed XML in UTF-8, and if the module has a table it shows the picture of the module.  Missing for
the full claim: sources with quoted identifiers, for which it is false (`C65_refuted`). -/
theorem C65_machine_partial (l : Libraries) (hesc : l.escape = id) (w : RawWorld) (d : Devices) (name : Str) (bs : List UInt8) (src : Str)
    (hin : RawInput l.readsFirst w name (some bs)) (hs : TextBytes src bs) (hn : bs.length ≤ 199000) (hq : '`' ∉ src) (m : Module)
    (hm : Contains src m) (hr : (errorsOf src).length ≤ d.reports)
    (hroom : ∀ text bytes, TextFor l.escape m text → TextBytes text bytes → bytes.length ≤ d.room) :
    ((runWhole l w d).exit = .panic ∧ (runWhole l w d).stdout = [] ∧ ∃ x, drawModule BinHeap.queue m = .error x) ∨
    ((runWhole l w d).exit = .success ∧ ∃ out x, TextBytes out (runWhole l w d).stdout ∧ readXml out = some x ∧
      (definitions m.entries ≠ [] → ∃ relations : List (List Element), Shows (svgDocument (picture (definitions m.entries) relations.flatten)) x ∧
        List.Forall₂ (ShowsRelation (lineNumbers (definitions m.entries)) (connections [] m.entries)) (connections [] m.entries) relations)) := by
  obtain ⟨es, h5, -, h7⟩ := ((C98_program l w d).2 name _ hin).2 bs src rfl hs hn
  obtain ⟨-, h9⟩ := h7 (by rw [h5.length_eq]; exact hr)
  obtain ⟨ha, hb⟩ := h9 m hm
  rcases textFor_or l.escape m with ⟨text, ht⟩ | ⟨-, x, hx⟩
  · obtain ⟨bytes, hby⟩ := C77_utf8.2.1 text
    have hl := hroom text bytes ht hby
    have hrun := (hb text bytes ht hby).1 (by omega)
    rw [List.take_of_length_le hl] at hrun
    rw [hrun]
    refine .inr ⟨rfl, text, ?_⟩
    rcases ht with ⟨he, rfl⟩ | ⟨hne, el, hel, rfl⟩
    · obtain ⟨x, hx⟩ := Option.isSome_iff_exists.mp (show (readXml emptyText).isSome = true by decide +kernel)
      exact ⟨x, hby, hx, fun h => absurd he h⟩
    · rw [hesc] at hby ⊢
      have hh : picHeight (lineNumbers (definitions m.entries)) ≤ 1000000000 := by
        refine (C88_sizes src m hm).2.1.trans ?_
        have : (src.length : Rat) ≤ 199000 := by exact_mod_cast (textBytes_length hs).trans hn
        linarith
      obtain ⟨x, rels, h1, h2, h3⟩ := C65_output_partial BinHeap.lawful src hq m hm hne hh (svgText id el) (by
        rw [stdoutText, runMain_drawing, (parse_contains src m).mpr hm]
        simp [hel])
      exact ⟨x, hby, h1, fun _ => ⟨rels, h2, h3⟩⟩
  · rw [ha x hx]
    exact .inl ⟨rfl, rfl, x, hx⟩

/-! ## Examples -/

/-- Some libraries. -/
def someLibraries : Libraries where
  readsFirst := false
  lexer := chumskyPolicy
  choice := keepingPolicy
  overflow := id
  cost := (· % 4294967296)
  cost_eq := fun _ h => Nat.mod_eq_of_lt h
  escape := id

/-- Other libraries. -/
def otherLibraries : Libraries where
  readsFirst := true
  lexer := otherPolicy
  choice := keepingPolicy
  overflow := fun _ => 0
  cost := fun n => if n < 4294967296 then n else 0
  cost_eq := fun _ h => if_pos h
  escape := id

/-- A file with the arguments `seiren` and its name. -/
def rawFile (path : Str) (bytes : List UInt8) : RawWorld :=
  ⟨[encodeUtf8 c!"seiren", encodeUtf8 path], fun p => if p = path then some bytes else none, none⟩

set_option maxRecDepth 1000000 in
/-- A source that meets the hypotheses, with a table, a relation, and an error of the tokenizer: its drawing is written, and with a device
that is full after 39 bytes the beginning of it, and the program panics. -/
example :
    let w := rawFile c!"a.erd" (encodeUtf8 c!"erd { a { id int }\nb { x int }\n + a.id o--o b.x }")
    let o := runWhole someLibraries w ⟨10, 100000⟩
    let o' := runWhole otherLibraries w ⟨10, 39⟩
    o.errors = [.unexpected ⟨32, 33⟩ (some c!"+") [c!"o", c!"`", c!"{", c!"}", c!";", c!".", c!"\n", c!"\r"]] ∧ o.exit = .success ∧
    o.stdout.take 39 = encodeUtf8 c!"<svg viewBox=\"0, 0, 1160, 170\" xmlns=\"h" ∧ o'.stdout = o.stdout.take 39 ∧ o'.exit = .panic := by
  decide +kernel

end Seiren
