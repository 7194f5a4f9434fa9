import Verif.Proofs.StepsWholeBound
import Verif.Props.Steps
import Verif.Props.Reading
/-! # C102: how many steps the whole program takes -/

namespace Seiren
open Steps Spec StepBound

/-- **C102**: the counted functions do what the functions without counts do, for every module and with every queue. -/
theorem C102_same (q : Queue) (m : Module) : (sDrawModule q m).val = drawModule q m := sDrawModule_val q m

theorem linesOf_intoMir (m : Module) : linesOf m.intoMir = (definitions m.entries).length + columnCount (definitions m.entries) := by
  rw [← lineNumbers_sum, show lineNumbers (definitions m.entries) = lineCounts m.intoMir from (lineCounts_intoMir m).symm]
  rfl

theorem linesOf_congr {doc doc' : Document} (hb : doc'.bodyId = doc.bodyId) (hc : ∀ i, childrenOf doc' i = childrenOf doc i) :
    doc'.bodyChildren.length = doc.bodyChildren.length ∧ linesOf doc' = linesOf doc := by
  have h : doc'.bodyChildren = doc.bodyChildren := by
    rw [bodyChildren_eq, bodyChildren_eq, tables, tables, hb, hc]
  exact ⟨by rw [h], by unfold linesOf; rw [h]; simp only [hc]⟩

/-- **C102**: to draw a module with `E` entries, among them `T` tables with `K` columns in all, and `R` drawn relations takes at most
`E + 19 T + 11 K + R (1 + 3 (10 T + 16 R))` steps besides those for routing (C100). -/
theorem C102_at_most {q : Queue} {QI : List Entry → Prop} (hq : q.Lawful QI) (m : Module)
    (hsize : (placeNodes m.intoMir).2.size.height ≤ 1000000000) :
    let T := (definitions m.entries).length
    let K := columnCount (definitions m.entries)
    let R := (connections [] m.entries).length
    (sDrawModule q m).steps ≤ m.entries.length + 19 * T + 11 * K + R * (1 + 3 * (10 * T + 16 * R)) +
      (sDrawEdgePath q (laidOut m.intoMir) .new).steps := by
  intro T K R
  obtain ⟨doc', g', h1, hn, hb, -, hmap⟩ := drawn_connections hq m hsize
  have hlen : doc'.edges.length = R := by simpa using congrArg List.length hmap
  have hg := (C75_effort hq m hsize doc' g' h1).1
  have h0 : (sDrawModule q m).steps = m.sIntoMir.steps + ((sPlaceNodes m.intoMir).steps + ((sPlaceTerminalPorts (placeNodes m.intoMir).1).steps +
      ((sDrawEdgePath q (laidOut m.intoMir) .new).steps + (sRender (some (placeNodes m.intoMir).2) doc').steps))) := by
    rw [sDrawModule, andThen_steps, sIntoMir_val, andThen_steps, sPlaceNodes_val, andThen_steps, sPlaceTerminalPorts_val, andThen_steps,
      sDrawEdgePath_val]
    rw [show placeTerminalPorts (placeNodes m.intoMir).1 = laidOut m.intoMir from rfl, h1]
  have hT : m.intoMir.bodyChildren.length = T := by rw [Seiren.bodyChildren_eq, tables_intoMir, recordIds_length]
  have hL := linesOf_intoMir m
  have hp := linesOf_congr (doc := m.intoMir) (doc' := (placeNodes m.intoMir).1) (C24_touches_positions_only m.intoMir).2.2 (childrenOf_placed _)
  have hr := linesOf_congr (doc := m.intoMir) (doc' := doc') hb (fun i => by
    rw [← childrenOf_laidOut m.intoMir i, childrenOf, hn]; rfl)
  have s1 := sIntoMir_le m
  have s2 := sPlaceNodes_le m.intoMir
  have s3 := sPlaceTerminalPorts_le (placeNodes m.intoMir).1
  have s4 := sRender_le (some (placeNodes m.intoMir).2) doc' (10 * T + 16 * R) (by
    intro e he ps hps
    obtain ⟨⟨w, -, hnd, hl⟩, -⟩ := C36_paths_shortest hq m.intoMir (drawable_intoMir m) hsize doc' g' h1 e he ps hps
    exact (locations_length hl hnd).trans hg)
  rw [hlen, hr.1, hr.2, Nat.add_comm (3 * (10 * T + 16 * R)) 1] at s4
  rw [hp.1, hp.2] at s3
  change _ ≤ _ + 2 * K at s1
  change _ = T + K at hL
  omega

/-- **C102**: and at least as many as the routing takes, for every module. -/
theorem C102_at_least (q : Queue) (m : Module) :
    let T := (definitions m.entries).length
    (2 * T + (connections [] m.entries).length * (4 * (T / 3))) * (T + 1) ≤ (sDrawModule q m).steps := by
  refine (C100_at_least q m .new).trans ?_
  rw [sDrawModule, andThen_steps, sIntoMir_val, andThen_steps, sPlaceNodes_val, andThen_steps, sPlaceTerminalPorts_val, andThen_steps]
  rw [show placeTerminalPorts (placeNodes m.intoMir).1 = laidOut m.intoMir from rfl]
  omega

theorem entries_count (es : List ModuleEntry) : es.length = (definitions es).length + relationCount es := by
  induction es with
  | nil => rfl
  | cons e es ih => cases e <;> simp only [List.length_cons, definitions, relationCount] <;> omega

/-- **C102, in terms of the source**: for `n` ≤ 47 000 000 characters drawing takes at most `30 n³ + 1069 n² + 7 n` steps. -/
theorem C102_drawing (src : Str) (hn : src.length ≤ 47000000) (m : Module) (hm : Contains src m) :
    (sDrawModule BinHeap.queue m).steps ≤ 30 * src.length ^ 3 + 1069 * src.length ^ 2 + 7 * src.length := by
  have h1 := C102_at_most BinHeap.lawful m (C88_height src m hm hn)
  have h2 := C100_source src hn m hm
  have h3 := contains_length hm
  have h4 := connections_count [] m.entries
  have h5 := entries_count m.entries
  simp only at h1
  generalize (definitions m.entries).length = T at *
  generalize columnCount (definitions m.entries) = K at *
  generalize (connections [] m.entries).length = R at *
  generalize relationCount m.entries = C at *
  have h6 : R * (1 + 3 * (10 * T + 16 * R)) ≤ R + 2 * src.length ^ 2 := by
    have a1 : 3 * T + 6 * R ≤ src.length := by omega
    have : R * (1 + 3 * (10 * T + 16 * R)) = R + (30 * (R * T) + 48 * (R * R)) := by ring
    nlinarith [Nat.mul_le_mul a1 a1, Nat.zero_le (R * T), Nat.zero_le (T * T), Nat.zero_le (R * R)]
  omega

/-- **C102, in terms of the source**: for `n` ≤ 199000 bytes, the characters and tokens that are read, the steps of drawing and the bytes that are
written are together at most `30 n³ + 1125 n² + (461 + 5 e) n + 308`, where `e` says how much the crate `svg` lengthens the texts. -/
theorem C102_source (src : Str) (bs : List UInt8) (hs : TextBytes src bs) (hn : bs.length ≤ 199000) (m : Module) (hm : Contains src m)
    (esc : Str → Str) (e : Nat) (he : ∀ t, byteLen (esc t) ≤ e * byteLen t) (text : Str) (ht : TextFor esc m text) (bytes : List UInt8)
    (hb : TextBytes text bytes) (pol : Policy) (pol' : ChoicePolicy) :
    charReads pol src + tokenReads pol' src + (sDrawModule BinHeap.queue m).steps + bytes.length ≤
      30 * bs.length ^ 3 + 1125 * bs.length ^ 2 + (461 + 5 * e) * bs.length + 308 := by
  have hlen := textBytes_length hs
  have h1 := C95_characters pol src
  have h2 : src.length * src.count '`' ≤ bs.length ^ 2 := by
    rw [sq]; exact Nat.mul_le_mul hlen (List.count_le_length.trans hlen)
  have h3 : tokenReads pol' src ≤ 33 * bs.length + 54 := by
    obtain ⟨ts, errs, ht, hsc⟩ := tokenize_scan src
    have h := C95_tokens pol' src ts errs ht
    have := scan_length hsc
    omega
  have h4 := C102_drawing src (by omega) m hm
  have h5 := (C99_source src bs hs hn m hm esc e he text ht bytes hb).1
  have h6 : src.length ^ 3 ≤ bs.length ^ 3 := Nat.pow_le_pow_left hlen 3
  have h7 : src.length ^ 2 ≤ bs.length ^ 2 := Nat.pow_le_pow_left hlen 2
  have h8 : 40 * bs.length * bs.length = 40 * bs.length ^ 2 := by ring
  rw [h8] at h5
  rw [Nat.add_mul] at h5 ⊢
  omega

/-- **C102**: a source without a module is only read, in at most quadratic time. -/
theorem C102_no_module (src : Str) (pol : Policy) (pol' : ChoicePolicy) :
    charReads pol src + tokenReads pol' src ≤ 16 * src.length ^ 2 + 160 * src.length + 130 := by
  have h1 := C95_characters pol src
  have h2 : src.length * src.count '`' ≤ src.length ^ 2 := by
    rw [sq]; exact Nat.mul_le_mul_left _ List.count_le_length
  have h3 : tokenReads pol' src ≤ 33 * src.length + 54 := by
    obtain ⟨ts, errs, ht, hsc⟩ := tokenize_scan src
    have h := C95_tokens pol' src ts errs ht
    have := scan_length hsc
    omega
  omega

/-- **C102**: the third power is needed: there are sources of `44 N + 62` bytes, without errors, whose drawing takes more than `12 N³` steps. -/
theorem C102_cubic (N : Nat) : ∃ src m, byteLen src = 44 * N + 62 ∧ Contains src m ∧ errorsOf src = [] ∧ ∀ q, 12 * N ^ 3 ≤ (sDrawModule q m).steps := by
  obtain ⟨src, m, h1, h2, h3, h4⟩ := C100_cubic N
  refine ⟨src, m, h1, h2, h3, fun q => (h4 q .new).trans ?_⟩
  rw [sDrawModule, andThen_steps, sIntoMir_val, andThen_steps, sPlaceNodes_val, andThen_steps, sPlaceTerminalPorts_val, andThen_steps]
  rw [show placeTerminalPorts (placeNodes m.intoMir).1 = laidOut m.intoMir from rfl]
  omega

set_option maxRecDepth 1000000 in
/-- Three tables, four columns and a relation, in 66 bytes: all but 114 of the steps are for routing. -/
example : (sDrawModule BinHeap.queue threeTables).steps = 2348 ∧ (sDrawEdgePath BinHeap.queue (laidOut threeTables.intoMir) .new).steps = 2234 ∧
    (placeNodes threeTables.intoMir).2.size.height ≤ 1000000000 := by
  decide +kernel

/-- The source of the example: 66 bytes (see the example of C99). -/
example : Contains storageSource threeTables ∧ charReads chumskyPolicy storageSource + tokenReads keepingPolicy storageSource = 788 :=
  ⟨storageSource_contains, by decide +kernel⟩

end Seiren
