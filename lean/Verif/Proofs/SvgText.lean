import Verif.Model.SvgText
import Verif.Spec.Xml
import Verif.Spec.Tidy
import Mathlib.Tactic.Ring
import Mathlib.Tactic.NormNum
import Mathlib.Tactic.Linarith
import Mathlib.Data.List.Lex
import Mathlib.Data.List.Nodup
/-! # Reading back the text of an SVG -/

namespace Seiren
open Spec

/-! ## Sequences -/

theorem span_append {α : Type} {p : α → Bool} {n rest : List α} (hn : ∀ x ∈ n, p x = true)
    (hr : ∀ x ∈ rest.head?, p x = false) : (n ++ rest).takeWhile p = n ∧ (n ++ rest).dropWhile p = rest := by
  rw [List.takeWhile_append_of_pos hn, List.dropWhile_append_of_pos hn]
  cases rest with
  | nil => simp
  | cons c rest => simp [hr c (by simp)]

theorem words_append {p : Char → Bool} {c : Char} (hc : p c = true) (s t : Str) :
    words p (s ++ c :: t) = words p s ++ words p t := by
  rw [words, List.splitOnP_append_cons _ _ hc, List.filter_append]; rfl

theorem words_nil {p : Char → Bool} : words p [] = [] := by simp [words]

theorem words_single {p : Char → Bool} {w : Str} (hw : ∀ x ∈ w, p x = false) (hne : w ≠ []) : words p w = [w] := by
  rw [words, List.splitOnP_eq_singleton hw]; simp [hne]

theorem words_sep {p : Char → Bool} {sep : Str} (hs : ∀ x ∈ sep, p x = true) (t : Str) : words p (sep ++ t) = words p t := by
  induction sep with
  | nil => rfl
  | cons c sep ih =>
    have := words_append (hs c (by simp)) [] (sep ++ t)
    simp only [List.nil_append] at this
    rw [List.cons_append, this, words_nil, List.nil_append, ih (fun x hx => hs x (by simp [hx]))]

theorem words_join {p : Char → Bool} {sep : Str} (hne : sep ≠ []) (hs : ∀ x ∈ sep, p x = true) (ws : List Str) :
    words p (joinWith sep ws) = ws.flatMap (words p) := by
  match ws with
  | [] => simp [joinWith, words_nil]
  | [w] => simp [joinWith]
  | w :: v :: rest =>
    obtain ⟨c, s, rfl⟩ := List.exists_cons_of_ne_nil hne
    rw [joinWith, List.append_assoc, List.cons_append, words_append (hs c (by simp)),
      words_sep (fun x hx => hs x (by simp [hx])), words_join hne hs (v :: rest)]
    simp

/-! ## Numbers -/

/-- A multiple of 1/2. -/
def Half (x : Rat) : Prop := ∃ n : Int, x = (n : Rat) / 2

theorem Half.add {x y : Rat} (hx : Half x) (hy : Half y) : Half (x + y) := by
  obtain ⟨a, rfl⟩ := hx
  obtain ⟨b, rfl⟩ := hy
  exact ⟨a + b, by push_cast; ring⟩

theorem Half.sub {x y : Rat} (hx : Half x) (hy : Half y) : Half (x - y) := by
  obtain ⟨a, rfl⟩ := hx
  obtain ⟨b, rfl⟩ := hy
  exact ⟨a - b, by push_cast; ring⟩

theorem Half.int (z : Int) : Half (z : Rat) := ⟨2 * z, by push_cast; ring⟩

theorem Half.nat (z : Nat) : Half (z : Rat) := ⟨2 * z, by push_cast; ring⟩

/-- A character of a number. -/
def numChar (c : Char) : Bool := c.isDigit || c == '-' || c == '.'

theorem displayNum_chars (x : Rat) : ∀ c ∈ displayNum x, numChar c = true := by
  intro c hc
  simp only [displayNum, List.mem_append] at hc
  rcases hc with (hc | hc) | hc
  · split at hc
    · simp at hc; subst hc; decide
    · simp at hc
  · simp [numChar, Nat.isDigit_of_mem_toDigits (by decide : 0 < 10) (by decide) hc]
  · split at hc
    · simp at hc; rcases hc with rfl | rfl <;> decide
    · simp at hc

theorem toDigits_ne_nil (n : Nat) : Nat.toDigits 10 n ≠ [] := by
  intro h
  have := Nat.length_toDigits_pos (b := 10) (n := n)
  rw [h] at this
  simp at this

theorem displayNum_ne_nil (x : Rat) : displayNum x ≠ [] := by
  simp [displayNum]

theorem natural_toDigits (n : Nat) : natural (Nat.toDigits 10 n) = some n := by
  have h : (Nat.toDigits 10 n).all Char.isDigit = true :=
    List.all_eq_true.mpr fun c hc => Nat.isDigit_of_mem_toDigits (by decide : 0 < 10) (by decide) hc
  rw [natural, if_pos ⟨toDigits_ne_nil n, h⟩]
  exact congrArg some (Nat.ofDigitChars_toDigits (b := 10) (n := n) (by decide) (by decide))

/-- The decimal number printed for a multiple of 1/2 is that number. -/
theorem decimal_displayNum {x : Rat} (hx : Half x) : decimal (displayNum x) = some x := by
  obtain ⟨n, rfl⟩ := hx
  have e : ((n : Rat) / 2 * 2).floor = n := by
    rw [show (n : Rat) / 2 * 2 = (n : Rat) by ring]; exact Rat.floor_intCast n
  have hdig : ∀ k : Nat, ∀ c ∈ Nat.toDigits 10 k, (c != '.') = true := by
    intro k c hc
    have := Nat.isDigit_of_mem_toDigits (by decide : 0 < 10) (by decide) hc
    simp only [bne_iff_ne, ne_eq]
    rintro rfl
    revert this; decide
  obtain ⟨d, ds, hd⟩ := List.exists_cons_of_ne_nil (toDigits_ne_nil (n.natAbs / 2))
  have hd' : d ≠ '-' := by
    rintro rfl
    have := Nat.isDigit_of_mem_toDigits (b := 10) (n := n.natAbs / 2) (c := '-') (by decide : 0 < 10) (by decide) (by rw [hd]; simp)
    revert this; decide
  -- the part after the sign
  have key : unsigned (Nat.toDigits 10 (n.natAbs / 2) ++ if n.natAbs % 2 = 1 then c!".5" else []) =
      some (((n.natAbs : Nat) : Rat) / 2) := by
    by_cases ho : n.natAbs % 2 = 1
    · obtain ⟨h1, h2⟩ := span_append (hdig (n.natAbs / 2)) (rest := c!".5") (by simp)
      rw [if_pos ho, unsigned, h2]
      simp only
      rw [h1, natural_toDigits, show natural ['5'] = some 5 by decide]
      simp only [List.length_singleton, Option.some.injEq]
      have hq : ((n.natAbs : Nat) : Rat) = 2 * ((n.natAbs / 2 : Nat) : Rat) + 1 := by
        have : n.natAbs = 2 * (n.natAbs / 2) + 1 := by omega
        exact_mod_cast this
      rw [hq]; push_cast; ring
    · obtain ⟨-, h2⟩ := span_append (hdig (n.natAbs / 2)) (rest := []) (by simp)
      rw [List.append_nil] at h2
      rw [if_neg ho, List.append_nil, unsigned, h2]
      simp only [natural_toDigits, Option.map_some, Option.some.injEq]
      have hq : ((n.natAbs : Nat) : Rat) = 2 * ((n.natAbs / 2 : Nat) : Rat) := by
        have : n.natAbs = 2 * (n.natAbs / 2) := by omega
        exact_mod_cast this
      rw [hq]; ring
  unfold displayNum
  simp only [e]
  by_cases hneg : n < 0
  · simp only [hneg, if_true, List.cons_append, List.nil_append]
    rw [decimal, key]
    have : ((n.natAbs : Nat) : Rat) = -(n : Rat) := by
      have : ((n.natAbs : Nat) : Int) = -n := by omega
      rw [← Int.cast_natCast, this, Int.cast_neg]
    rw [this, Option.map_some]
    congr 1; ring
  · simp only [hneg, if_false, List.nil_append]
    rw [decimal, key]
    · have : ((n.natAbs : Nat) : Rat) = (n : Rat) := by
        have : ((n.natAbs : Nat) : Int) = n := by omega
        rw [← Int.cast_natCast, this]
      rw [this]
    · intro s hs
      rw [hd, List.cons_append, List.cons.injEq] at hs
      exact hd' hs.1

theorem numChar_not_blank {c : Char} (h : numChar c = true) : isBlank c = false ∧ (c == ',') = false := by
  have : ∀ d : Char, (d == ' ' || d == '\t' || d == '\n' || d == '\r' || d == ',') = true → numChar d = false := by
    intro d hd
    simp only [Bool.or_eq_true, beq_iff_eq] at hd
    rcases hd with (((rfl | rfl) | rfl) | rfl) | rfl <;> decide
  by_contra hcon
  have h2 := this c (by
    simp only [isBlank] at hcon
    simp only [Bool.or_eq_true, beq_iff_eq, not_and_or, Bool.or_eq_false_iff, beq_eq_false_iff_ne] at hcon ⊢
    tauto)
  rw [h] at h2; cases h2

theorem words_displayNum (x : Rat) : words (fun c => c == ',' || isBlank c) (displayNum x) = [displayNum x] := by
  apply words_single _ (displayNum_ne_nil x)
  intro c hc
  have := numChar_not_blank (displayNum_chars x c hc)
  simp [this.1, this.2]

theorem readAll_decimal {xs : List Rat} (h : ∀ x ∈ xs, Half x) : readAll decimal (xs.map displayNum) = some xs := by
  induction xs with
  | nil => rfl
  | cons x xs ih =>
    rw [List.map_cons, readAll, decimal_displayNum (h x (by simp)), ih (fun y hy => h y (by simp [hy]))]

theorem numbers_nums {xs : List Rat} (h : ∀ x ∈ xs, Half x) : numbers (joinWith c!", " (xs.map displayNum)) = some xs := by
  rw [numbers, words_join (by simp) (by decide)]
  have : (xs.map displayNum).flatMap (words fun c => c == ',' || isBlank c) = xs.map displayNum := by
    rw [List.flatMap_map, List.map_eq_flatMap]
    congr 1; funext x; exact words_displayNum x
  rw [this, readAll_decimal h]

theorem numbers_points {ps : List Point} (h : ∀ p ∈ ps, Half p.x ∧ Half p.y) :
    numbers (joinWith c!" " (ps.map fun p => displayNum p.x ++ c!", " ++ displayNum p.y)) =
      some (ps.flatMap fun p => [p.x, p.y]) := by
  rw [numbers, words_join (by simp) (by decide)]
  have : (ps.map fun p => displayNum p.x ++ c!", " ++ displayNum p.y).flatMap (words fun c => c == ',' || isBlank c) =
      (ps.flatMap fun p => [p.x, p.y]).map displayNum := by
    rw [List.flatMap_map, List.map_flatMap]
    congr 1; funext p
    rw [List.append_assoc, List.cons_append, words_append (by decide), words_sep (sep := c!" ") (by decide), words_displayNum,
      words_displayNum]
    rfl
  rw [this, readAll_decimal]
  intro x hx
  obtain ⟨p, hp, hx⟩ := List.mem_flatMap.mp hx
  simp only [List.mem_cons, List.not_mem_nil, or_false] at hx
  rcases hx with rfl | rfl
  · exact (h p hp).1
  · exact (h p hp).2

/-! ## Path data -/

/-- The points of a command. -/
def PathCommand.pts : PathCommand → List Point
  | .moveTo p => [p]
  | .lineTo p => [p]
  | .quadTo c p => [c, p]

theorem words_blank_num (x : Rat) : words isBlank (displayNum x) = [displayNum x] := by
  apply words_single _ (displayNum_ne_nil x)
  intro c hc
  exact (numChar_not_blank (displayNum_chars x c hc)).1

theorem words_letter_num {c : Char} (hc : isBlank c = false) (x : Rat) : words isBlank (c :: displayNum x) = [c :: displayNum x] := by
  apply words_single _ (by simp)
  intro d hd
  rcases List.mem_cons.mp hd with rfl | hd
  · exact hc
  · exact (numChar_not_blank (displayNum_chars x d hd)).1

theorem words_two (c : Char) (hc : isBlank c = false) (x y : Rat) :
    words isBlank ([c] ++ displayNum x ++ c!" " ++ displayNum y) = [c :: displayNum x, displayNum y] := by
  rw [List.append_assoc, List.cons_append (a := ' '), words_append (by decide)]
  simp only [List.cons_append, List.nil_append]
  rw [words_letter_num hc, words_blank_num]
  rfl

theorem pathWords_path {cs : List PathCommand} (h : ∀ c ∈ cs, ∀ p ∈ c.pts, Half p.x ∧ Half p.y) :
    pathWords (words isBlank (joinWith c!" " (cs.map PathCommand.display))) = some cs := by
  rw [words_join (by simp) (by decide), List.flatMap_map]
  induction cs with
  | nil => rfl
  | cons c cs ih =>
    have ih := ih (fun c' hc' => h c' (by simp [hc']))
    have hc := h c (by simp)
    rw [List.flatMap_cons]
    cases c with
    | moveTo p =>
      obtain ⟨hx, hy⟩ := hc p (by simp [PathCommand.pts])
      rw [PathCommand.display, words_two _ (by decide)]
      simp only [List.cons_append, List.nil_append, pathWords, decimal_displayNum hx, decimal_displayNum hy, ih]
    | lineTo p =>
      obtain ⟨hx, hy⟩ := hc p (by simp [PathCommand.pts])
      rw [PathCommand.display, words_two _ (by decide)]
      simp only [List.cons_append, List.nil_append, pathWords, decimal_displayNum hx, decimal_displayNum hy, ih]
    | quadTo c p =>
      obtain ⟨hx, hy⟩ := hc p (by simp [PathCommand.pts])
      obtain ⟨hcx, hcy⟩ := hc c (by simp [PathCommand.pts])
      have hw : words isBlank (PathCommand.display (.quadTo c p)) =
          ['Q' :: displayNum c.x, displayNum c.y, displayNum p.x, displayNum p.y] := by
        rw [PathCommand.display]
        rw [List.append_assoc _ c!" " (displayNum p.y), List.cons_append (a := ' '), words_append (by decide)]
        rw [List.append_assoc _ c!" " (displayNum p.x), List.cons_append (a := ' '), words_append (by decide)]
        rw [words_two _ (by decide)]
        simp [words_blank_num]
      rw [hw]
      simp only [List.cons_append, List.nil_append, pathWords, decimal_displayNum hx, decimal_displayNum hy, decimal_displayNum hcx,
        decimal_displayNum hcy, ih]

/-! ## Attributes -/

theorem insertAttr_perm (a : Str × Str) (as : List (Str × Str)) : (insertAttr a as).Perm (a :: as) := by
  induction as with
  | nil => exact .refl _
  | cons b as ih =>
    rw [insertAttr]
    split
    · exact .refl _
    · exact (ih.cons b).trans (.swap a b as)

theorem sortAttrs_perm (as : List (Str × Str)) : (sortAttrs as).Perm as := by
  induction as with
  | nil => exact .refl _
  | cons a as ih => exact (insertAttr_perm a _).trans (ih.cons a)

theorem strLt_iff (s t : Str) : strLt s t = true ↔ codes s < codes t := by
  induction s generalizing t with
  | nil =>
    cases t with
    | nil => simp [strLt, codes]
    | cons b t => simp [strLt, codes]
  | cons a s ih =>
    cases t with
    | nil => simp [strLt, codes]
    | cons b t =>
      have hab : a = b ↔ a.toNat = b.toNat := ⟨fun h => h ▸ rfl, fun h => Char.toNat_inj.mp h⟩
      simp only [strLt, Bool.or_eq_true, decide_eq_true_eq, Bool.and_eq_true, beq_iff_eq, ih, codes, List.map_cons, List.cons_lt_cons_iff, hab]

theorem insertAttr_sorted (a : Str × Str) {as : List (Str × Str)} (h : (as.map fun a => codes a.1).Pairwise (· ≤ ·)) :
    ((insertAttr a as).map fun a => codes a.1).Pairwise (· ≤ ·) := by
  induction as with
  | nil => simp [insertAttr]
  | cons b as ih =>
    rw [List.map_cons, List.pairwise_cons] at h
    rw [insertAttr]
    split
    · rename_i hlt
      rw [strLt_iff] at hlt
      rw [List.map_cons, List.map_cons, List.pairwise_cons]
      refine ⟨?_, List.pairwise_cons.mpr h⟩
      intro c hc
      rcases List.mem_cons.mp hc with rfl | hc
      · exact le_of_lt hlt
      · exact le_trans (le_of_lt hlt) (h.1 c hc)
    · rename_i hlt
      rw [strLt_iff] at hlt
      rw [List.map_cons, List.pairwise_cons]
      refine ⟨?_, ih h.2⟩
      intro c hc
      rcases List.mem_cons.mp (((insertAttr_perm a as).map fun a => codes a.1).mem_iff.mp hc) with rfl | hc
      · exact le_of_not_gt hlt
      · exact h.1 c hc

theorem sortAttrs_sorted (as : List (Str × Str)) : ((sortAttrs as).map fun a => codes a.1).Pairwise (· ≤ ·) := by
  induction as with
  | nil => simp [sortAttrs]
  | cons a as ih => exact insertAttr_sorted a ih

theorem codes_inj : Function.Injective codes := List.map_injective_iff.mpr fun _ _ h => Char.toNat_inj.mp h

theorem sortAttrs_ascending {as : List (Str × Str)} (h : (as.map (·.1)).Nodup) :
    ((sortAttrs as).map fun a => codes a.1).Pairwise (· < ·) := by
  have h1 : ((sortAttrs as).map fun a => codes a.1).Nodup := by
    have := (((sortAttrs_perm as).map (·.1)).nodup_iff.mpr h).map codes_inj
    rw [List.map_map] at this
    exact this
  exact ((sortAttrs_sorted as).and h1).imp fun h => lt_of_le_of_ne h.1 h.2

/-- A character that needs no care in an attribute. -/
def safeChar (c : Char) : Bool :=
  decide (32 ≤ c.toNat) && decide (c.toNat < 127) && c != '"' && c != '\'' && c != '<' && c != '&' && c != ']'

theorem decode_cons {c : Char} {s : Str} (h1 : c ≠ '&') (h2 : c ≠ '<') (h3 : c ≠ '\r') (h4 : isXmlChar c = true)
    (h5 : ∀ t, c = ']' → s ≠ ']' :: '>' :: t) : decode (c :: s) = (decode s).map (c :: ·) := by
  rw [decode]
  · simp [h1, h2, h4]
  all_goals simp_all

theorem safeChar_spec {c : Char} (h : safeChar c = true) :
    c ≠ '&' ∧ c ≠ '<' ∧ c ≠ '\r' ∧ isXmlChar c = true ∧ c ≠ ']' ∧ c ≠ '"' ∧ (if isBlank c then ' ' else c) = c := by
  simp only [safeChar, Bool.and_eq_true, decide_eq_true_eq, bne_iff_ne, ne_eq] at h
  obtain ⟨⟨⟨⟨⟨⟨h1, h2⟩, h3⟩, h4⟩, h5⟩, h6⟩, h7⟩ := h
  have hr : ∀ d : Char, d.toNat < 32 → c ≠ d := by rintro d hd rfl; omega
  refine ⟨h6, h5, hr _ (by decide), ?_, h7, h3, ?_⟩
  · have e1 : (decide (32 ≤ c.toNat)) = true := by simpa using h1
    have e2 : (c.toNat != 0xFFFE) = true := by simp only [bne_iff_ne, ne_eq]; omega
    have e3 : (c.toNat != 0xFFFF) = true := by simp only [bne_iff_ne, ne_eq]; omega
    rw [isXmlChar, e1, e2, e3]; simp
  · by_cases hb : c = ' '
    · subst hb; rfl
    · have : isBlank c = false := by
        simp [isBlank, hb, hr '\t' (by decide), hr '\n' (by decide), hr '\r' (by decide)]
      simp [this]

theorem decodeValue_safe {v : Str} (h : ∀ c ∈ v, safeChar c = true) : decodeValue v = some v := by
  have hd : decode v = some v := by
    induction v with
    | nil => rfl
    | cons c v ih =>
      obtain ⟨h1, h2, h3, h4, h5, -, -⟩ := safeChar_spec (h c (by simp))
      rw [decode_cons h1 h2 h3 h4 (fun _ e => absurd e h5), ih (fun d hd => h d (by simp [hd]))]
      rfl
  rw [decodeValue, hd, Option.map_some]
  congr 1
  conv_rhs => rw [← List.map_id v]
  apply List.map_congr_left
  intro c hc
  exact (safeChar_spec (h c hc)).2.2.2.2.2.2

/-- A name of XML. -/
def XmlName (n : Str) : Prop := ∃ c s, n = c :: s ∧ isNameStart c = true ∧ ∀ d ∈ n, isNameChar d = true

theorem readName_name {n rest : Str} (h : XmlName n) (hr : ∀ x ∈ rest.head?, isNameChar x = false) :
    readName (n ++ rest) = some (n, rest) := by
  obtain ⟨c, s, rfl, h1, h2⟩ := h
  obtain ⟨e1, e2⟩ := span_append h2 hr
  rw [readName, e1]
  simp only [h1, if_true, e2]

/-- An attribute that is read back. -/
def GoodAttr (a : Str × Str) : Prop := XmlName a.1 ∧ ∀ c ∈ a.2, safeChar c = true

theorem attrText_good {a : Str × Str} (h : GoodAttr a) : attrText a = ' ' :: (a.1 ++ ('=' :: '"' :: (a.2 ++ ['"']))) := by
  have : a.2.contains '"' = false := by
    rw [List.contains_eq_mem]
    simp only [decide_eq_false_iff_not]
    intro hc
    have := h.2 _ hc
    revert this; decide
  rw [attrText, this]; simp

theorem name_head_not_blank {n : Str} (h : XmlName n) (r : Str) :
    (n ++ r).dropWhile isBlank = n ++ r ∧ ∀ t, (n ++ r ≠ '>' :: t) ∧ (n ++ r ≠ '/' :: t) := by
  obtain ⟨c, s, rfl, h1, -⟩ := h
  have hb : isBlank c = false := by
    by_contra hcon
    simp only [isBlank, Bool.not_eq_false, Bool.or_eq_true, beq_iff_eq] at hcon
    rcases hcon with ((rfl | rfl) | rfl) | rfl <;> revert h1 <;> decide
  refine ⟨by simp [hb], fun t => ⟨?_, ?_⟩⟩
  · intro e; simp only [List.cons_append, List.cons.injEq] at e; obtain ⟨rfl, -⟩ := e; revert h1; decide
  · intro e; simp only [List.cons_append, List.cons.injEq] at e; obtain ⟨rfl, -⟩ := e; revert h1; decide

theorem readAttrs_attrs (as : List (Str × Str)) (h : ∀ a ∈ as, GoodAttr a) (r : Str)
    (hr : (∃ t, r = '>' :: t) ∨ ∃ t, r = '/' :: t) (fuel : Nat) (hf : (as.flatMap attrText ++ r).length < fuel) :
    readAttrs fuel (as.flatMap attrText ++ r) = some (as, r) := by
  induction as generalizing fuel with
  | nil =>
    obtain ⟨fuel, rfl⟩ : ∃ f, fuel = f + 1 := ⟨fuel - 1, by omega⟩
    rw [List.flatMap_nil, List.nil_append, readAttrs]
    rcases hr with ⟨t, rfl⟩ | ⟨t, rfl⟩
    · have : ('>' :: t).dropWhile isBlank = '>' :: t := by rw [List.dropWhile_cons_of_neg (by decide)]
      simp only [this]
    · have : ('/' :: t).dropWhile isBlank = '/' :: t := by rw [List.dropWhile_cons_of_neg (by decide)]
      simp only [this]
  | cons a as ih =>
    obtain ⟨fuel, rfl⟩ : ∃ f, fuel = f + 1 := ⟨fuel - 1, by omega⟩
    have ha := h a (by simp)
    have hq : ∀ c ∈ a.2, (c != '"') = true := fun c hc => by
      simpa using (safeChar_spec (ha.2 c hc)).2.2.2.2.2.1
    have htext : (a :: as).flatMap attrText ++ r =
        ' ' :: (a.1 ++ ('=' :: '"' :: (a.2 ++ ('"' :: (as.flatMap attrText ++ r))))) := by
      rw [List.flatMap_cons, attrText_good ha]; simp
    rw [htext] at hf ⊢
    have ih := ih (fun b hb => h b (by simp [hb])) fuel (by simp at hf ⊢; omega)
    generalize as.flatMap attrText ++ r = R at *
    obtain ⟨e1, e2⟩ := name_head_not_blank ha.1 ('=' :: '"' :: (a.2 ++ ('"' :: R)))
    have e3 := readName_name ha.1 (rest := '=' :: '"' :: (a.2 ++ ('"' :: R))) (by simp; decide)
    obtain ⟨e4, e5⟩ := span_append (p := (· != '"')) hq (rest := '"' :: R) (by simp)
    rw [readAttrs]
    have e6 : (' ' :: (a.1 ++ ('=' :: '"' :: (a.2 ++ ('"' :: R))))).dropWhile isBlank = a.1 ++ ('=' :: '"' :: (a.2 ++ ('"' :: R))) := by
      rw [List.dropWhile_cons_of_pos (by decide), e1]
    simp only [e6]
    split
    next t heq => exact absurd heq (e2 _).1
    next t heq => exact absurd heq (e2 _).2
    next =>
      rw [if_neg (by simp), e3]
      simp only
      have b1 : ('=' :: '"' :: (a.2 ++ ('"' :: R))).dropWhile isBlank = '=' :: '"' :: (a.2 ++ ('"' :: R)) := by
        rw [List.dropWhile_cons_of_neg (by decide)]
      have b2 : ('"' :: (a.2 ++ ('"' :: R))).dropWhile isBlank = '"' :: (a.2 ++ ('"' :: R)) := by
        rw [List.dropWhile_cons_of_neg (by decide)]
      rw [b1]
      simp only
      rw [b2]
      simp only [beq_self_eq_true, Bool.true_or, if_true, e4, e5, decodeValue_safe ha.2, ih, Option.map_some]

/-! ## Elements -/

/-- A value that is read back. -/
def GoodValue (v : AttrVal) : Prop := (∀ c ∈ v.display, safeChar c = true) ∧ ValueShown v.display v

/-- A text that is read back. -/
def GoodText (esc : Str → Str) (t : Str) : Prop :=
  (∀ c ∈ esc t, c ≠ '<') ∧ decode (c!"\n" ++ esc t ++ c!"\n") = some (c!"\n" ++ t ++ c!"\n")

mutual
/-- An element that is read back, if the texts with `G` are. -/
def GoodElement (G : Str → Prop) : Element → Prop
  | .mk name attrs children text => XmlName name ∧ (attrs.map (·.1)).Nodup ∧ (∀ a ∈ attrs, XmlName a.1 ∧ GoodValue a.2) ∧
      GoodElements G children ∧ ∀ t ∈ text, children = [] ∧ G t

/-- The same for lists. -/
def GoodElements (G : Str → Prop) : List Element → Prop
  | [] => True
  | e :: es => GoodElement G e ∧ GoodElements G es
end

/-- The attributes as they are written. -/
def shownAttrs (attrs : List (Str × AttrVal)) : List (Str × Str) := sortAttrs (attrs.map fun a => (a.1, a.2.display))

theorem shownAttrs_good {attrs : List (Str × AttrVal)} (hn : (attrs.map (·.1)).Nodup)
    (h : ∀ a ∈ attrs, XmlName a.1 ∧ GoodValue a.2) :
    (∀ a ∈ shownAttrs attrs, GoodAttr a) ∧ ((shownAttrs attrs).map (·.1)).Nodup ∧ AttrsShown attrs (shownAttrs attrs) := by
  have hp := sortAttrs_perm (attrs.map fun a => (a.1, a.2.display))
  have hk : ((shownAttrs attrs).map (·.1)).Perm (attrs.map (·.1)) := by
    have := hp.map (·.1)
    rwa [List.map_map] at this
  refine ⟨?_, hk.nodup_iff.mpr hn, hn, hk, ?_⟩
  · intro a ha
    obtain ⟨b, hb, rfl⟩ := List.mem_map.mp (hp.mem_iff.mp ha)
    exact ⟨(h b hb).1, (h b hb).2.1⟩
  · intro k v hv
    exact ⟨v.display, hp.mem_iff.mpr (List.mem_map.mpr ⟨(k, v), hv, rfl⟩), (h (k, v) hv).2.2⟩

theorem readTag_tag {name : Str} (hn : XmlName name) {as : List (Str × Str)} (ha : ∀ a ∈ as, GoodAttr a)
    (hd : (as.map (·.1)).Nodup) (r : Str) :
    readTag (name ++ as.flatMap attrText ++ '>' :: r) = some (name, as, false, r) ∧
      readTag (name ++ as.flatMap attrText ++ '/' :: '>' :: r) = some (name, as, true, r) := by
  have hhead : ∀ t : Str, (∃ u, t = '>' :: u) ∨ (∃ u, t = '/' :: u) → ∀ x ∈ (as.flatMap attrText ++ t).head?, isNameChar x = false := by
    intro t ht x hx
    cases as with
    | nil =>
      rcases ht with ⟨u, rfl⟩ | ⟨u, rfl⟩ <;> simp at hx <;> subst hx <;> decide
    | cons a as =>
      rw [List.flatMap_cons, attrText_good (ha a (by simp))] at hx
      simp at hx
      subst hx
      decide
  constructor
  · rw [List.append_assoc, readTag, readName_name hn (hhead _ (Or.inl ⟨_, rfl⟩))]
    simp only
    rw [readAttrs_attrs as ha _ (Or.inl ⟨_, rfl⟩) _ (by omega)]
    simp [hd]
  · rw [List.append_assoc, readTag, readName_name hn (hhead _ (Or.inr ⟨_, rfl⟩))]
    simp only
    rw [readAttrs_attrs as ha _ (Or.inr ⟨_, rfl⟩) _ (by omega)]
    simp [hd]

theorem readClose_close {name : Str} (hn : XmlName name) (r : Str) : readClose name ('<' :: '/' :: (name ++ '>' :: r)) = some r := by
  rw [readClose, readName_name hn (by simp; decide)]
  simp only [if_true]
  rw [List.dropWhile_cons_of_neg (by decide)]
  rfl

/-- The text of an element begins with `<` and the name. -/
theorem toText_head (esc : Str → Str) (e : Element) (he : XmlName e.name) :
    ∃ t, e.toText esc = '<' :: t ∧ ∀ u, t ≠ '/' :: u := by
  obtain ⟨name, attrs, children, text⟩ := e
  obtain ⟨c, s, hc, h1, -⟩ := he
  simp only [Element.name] at hc
  subst hc
  rw [Element.toText]
  simp only [List.append_assoc, List.cons_append, List.nil_append]
  refine ⟨_, rfl, ?_⟩
  rintro u e
  cases e
  revert h1; decide

theorem readContent_elem {f : Nat} {t : Str} (ht : ∀ u, t ≠ '/' :: u) :
    readContent (f + 1) ('<' :: t) = match readTag t with
    | none => none
    | some (name, attrs, true, r) => (readContent f r).map fun (xs, r) => (.elem name attrs [] :: xs, r)
    | some (name, attrs, false, r) =>
      match readContent f r with
      | none => none
      | some (inner, r) =>
        match readClose name r with
        | none => none
        | some r => (readContent f r).map fun (xs, r) => (.elem name attrs inner :: xs, r) := by
  rw [readContent]
  · rfl
  · intro s hs
    exact ht s hs

theorem readContent_text {f : Nat} {s : Str} {r : Str} (hs : ∀ c ∈ s, c ≠ '<') (hne : s ≠ []) (hr : ∀ c ∈ r.head?, c = '<') {d : Str}
    (hd : decode s = some d) {xs : List Xml} {r' : Str} (h : readContent f r = some (xs, r')) :
    readContent (f + 1) (s ++ r) = some (.text d :: xs, r') := by
  obtain ⟨c, s, rfl⟩ := List.exists_cons_of_ne_nil hne
  obtain ⟨e1, e2⟩ := span_append (p := (· != '<')) (n := c :: s) (rest := r) (fun x hx => by simpa using hs x hx)
    (fun x hx => by simp [hr x hx])
  rw [List.cons_append] at e1 e2 ⊢
  have hc : c ≠ '<' := hs c (by simp)
  rw [readContent]
  · rw [e1, hd, e2]
    simp [h]
  · intro t e _; exact hc e
  · intro e; exact hc e

theorem elements_append (a b : List Xml) : elements (a ++ b) = elements a ++ elements b := by
  induction a with
  | nil => rfl
  | cons x a ih => cases x <;> simp [elements, ih]

theorem characters_append (a b : List Xml) : characters (a ++ b) = characters a ++ characters b := by
  induction a with
  | nil => rfl
  | cons x a ih => cases x <;> simp [characters, ih]

theorem printAll_append (a b : List Xml) : printAll (a ++ b) = printAll a ++ printAll b := by
  induction a with
  | nil => rfl
  | cons x a ih => simp [printAll, ih]

theorem attrs_print {as : List (Str × Str)} (h : ∀ a ∈ as, GoodAttr a) :
    as.flatMap attrText = as.flatMap fun a => c!" " ++ a.1 ++ c!"=\"" ++ a.2 ++ c!"\"" := by
  induction as with
  | nil => rfl
  | cons a as ih =>
    rw [List.flatMap_cons, List.flatMap_cons, ih fun b hb => h b (by simp [hb]), attrText_good (h a (by simp))]
    simp

mutual
theorem read_element (esc : Str → Str) : ∀ e : Element, GoodElement (GoodText esc) e → ∃ n as c, Shows e (.elem n as c) ∧ Tidy (.elem n as c) ∧ ((∀ t, esc t = t) → e.toText esc = printXml (.elem n as c)) ∧
    ∀ (fuel : Nat) (rest : Str) (xs : List Xml) (r : Str), (e.toText esc ++ rest).length < fuel →
      (∀ f, rest.length < f → readContent f rest = some (xs, r)) →
      readContent fuel (e.toText esc ++ rest) = some (.elem n as c :: xs, r)
  | .mk name attrs children text, hg => by
    obtain ⟨hname, hnd, hattrs, hch, htext⟩ := hg
    obtain ⟨g1, g2, g3⟩ := shownAttrs_good hnd hattrs
    obtain ⟨inner, s1, s2, s4, s5, s3⟩ := read_children esc children hch
    have hasc : ((shownAttrs attrs).map fun a => codes a.1).Pairwise (· < ·) :=
      sortAttrs_ascending (by rw [List.map_map]; exact hnd)
    have hhead : ∀ (u v : Str), name ++ u ≠ '/' :: v := by
      intro u v e
      exact (name_head_not_blank hname u).2 v |>.2 e
    by_cases hempty : children = [] ∧ text = none
    · obtain ⟨rfl, rfl⟩ := hempty
      refine ⟨name, shownAttrs attrs, [], ?_, ⟨hasc, Or.inl rfl⟩, ?_, ?_⟩
      · rw [Shows]
        exact ⟨rfl, g3, trivial, rfl⟩
      · intro _
        rw [Element.toText, printXml, ← attrs_print g1]; simp [shownAttrs]
      · intro fuel rest xs r hf hrest
        have ht : (Element.mk name attrs [] none).toText esc ++ rest =
            '<' :: (name ++ (shownAttrs attrs).flatMap attrText ++ '/' :: '>' :: rest) := by
          rw [Element.toText]; simp [shownAttrs]
        rw [ht] at hf ⊢
        obtain ⟨fuel, rfl⟩ : ∃ f, fuel = f + 1 := ⟨fuel - 1, by omega⟩
        rw [readContent_elem (by intro u; rw [List.append_assoc]; exact hhead _ _), (readTag_tag hname g1 g2 rest).2]
        simp only
        rw [hrest fuel (by simp at hf; omega)]
        rfl
    · cases text with
      | none =>
        have hc : children ≠ [] := by simpa using hempty
        refine ⟨name, shownAttrs attrs, inner ++ [.text c!"\n"], ?_, ⟨hasc, Or.inr (Or.inr s4)⟩, ?_, ?_⟩
        · rw [Shows]
          refine ⟨rfl, g3, ?_, ?_⟩
          · rw [elements_append]; simpa [elements] using s1
          · rw [characters_append, List.all_append, s2]
            decide
        · intro hesc
          rw [Element.toText, printXml, ← attrs_print g1, printAll_append, ← s5 hesc]
          simp [shownAttrs, hc, printAll, printXml]
        · intro fuel rest xs r hf hrest
          have ht : (Element.mk name attrs children none).toText esc ++ rest =
              '<' :: (name ++ (shownAttrs attrs).flatMap attrText ++
                '>' :: (childrenText esc children ++ ('\n' :: '<' :: '/' :: (name ++ '>' :: rest)))) := by
            rw [Element.toText]
            simp [shownAttrs, hc]
          rw [ht] at hf ⊢
          obtain ⟨fuel, rfl⟩ : ∃ f, fuel = f + 1 := ⟨fuel - 1, by omega⟩
          rw [readContent_elem (by intro u; rw [List.append_assoc]; exact hhead _ _), (readTag_tag hname g1 g2 _).1]
          simp only
          have hin := s3 fuel ('\n' :: '<' :: '/' :: (name ++ '>' :: rest)) [.text c!"\n"] ('<' :: '/' :: (name ++ '>' :: rest))
            (by simp at hf ⊢; omega) (by
              intro f hf'
              obtain ⟨f, rfl⟩ : ∃ f', f = f' + 1 := ⟨f - 1, by omega⟩
              refine readContent_text (s := c!"\n") (by simp) (by simp) (by simp) (by decide) ?_
              obtain ⟨f, rfl⟩ : ∃ f', f = f' + 1 := ⟨f - 1, by simp at hf'; omega⟩
              rw [readContent])
          rw [hin]
          simp only
          rw [readClose_close hname]
          simp only
          rw [hrest fuel (by simp at hf; omega)]
          rfl
      | some t =>
        obtain ⟨rfl, ht1, ht2⟩ := htext t (by simp)
        refine ⟨name, shownAttrs attrs, [.text (c!"\n" ++ t ++ c!"\n")], ?_, ⟨hasc, Or.inr (Or.inl ⟨t, rfl⟩)⟩, ?_, ?_⟩
        · rw [Shows]
          refine ⟨rfl, g3, trivial, ?_⟩
          simp [characters]
        · intro hesc
          rw [Element.toText, printXml, ← attrs_print g1]
          simp [shownAttrs, childrenText, printAll, printXml, hesc]
        · intro fuel rest xs r hf hrest
          have ht : (Element.mk name attrs [] (some t)).toText esc ++ rest =
              '<' :: (name ++ (shownAttrs attrs).flatMap attrText ++
                '>' :: ((c!"\n" ++ esc t ++ c!"\n") ++ ('<' :: '/' :: (name ++ '>' :: rest)))) := by
            rw [Element.toText]
            simp [shownAttrs, childrenText]
          rw [ht] at hf ⊢
          obtain ⟨fuel, rfl⟩ : ∃ f, fuel = f + 1 := ⟨fuel - 1, by omega⟩
          rw [readContent_elem (by intro u; rw [List.append_assoc]; exact hhead _ _), (readTag_tag hname g1 g2 _).1]
          simp only
          obtain ⟨fuel, rfl⟩ : ∃ f, fuel = f + 1 := ⟨fuel - 1, by simp at hf; omega⟩
          have hlt : ∀ c ∈ c!"\n" ++ esc t ++ c!"\n", c ≠ '<' := by
            intro c hc
            simp only [List.mem_append, List.mem_singleton] at hc
            rcases hc with (rfl | hc) | rfl
            · decide
            · exact ht1 c hc
            · decide
          have hin : readContent (fuel + 1) ((c!"\n" ++ esc t ++ c!"\n") ++ ('<' :: '/' :: (name ++ '>' :: rest))) =
              some ([.text (c!"\n" ++ t ++ c!"\n")], '<' :: '/' :: (name ++ '>' :: rest)) := by
            refine readContent_text hlt (by simp) (by simp) ht2 ?_
            obtain ⟨fuel, rfl⟩ : ∃ f, fuel = f + 1 := ⟨fuel - 1, by simp at hf; omega⟩
            rw [readContent]
          rw [hin]
          simp only
          rw [readClose_close hname]
          simp only
          rw [hrest (fuel + 1) (by simp at hf; omega)]
          rfl

theorem read_children (esc : Str → Str) : ∀ es : List Element, GoodElements (GoodText esc) es → ∃ content : List Xml,
    ShowsAll es (elements content) ∧ (characters content).all isBlank = true ∧ OnLines (content ++ [.text c!"\n"]) ∧
    ((∀ t, esc t = t) → childrenText esc es = printAll content) ∧
    ∀ (fuel : Nat) (rest : Str) (xs : List Xml) (r : Str), (childrenText esc es ++ rest).length < fuel →
      (∀ f, rest.length < f → readContent f rest = some (xs, r)) →
      readContent fuel (childrenText esc es ++ rest) = some (content ++ xs, r)
  | [], _ => ⟨[], trivial, rfl, rfl, fun _ => by rw [childrenText, printAll], fun fuel rest xs r hf h => by
      rw [childrenText, List.nil_append] at hf ⊢; exact h fuel hf⟩
  | e :: es, hg => by
    obtain ⟨n, as, c, a1, a3, a4, a2⟩ := read_element esc e hg.1
    obtain ⟨content, s1, s2, s4, s5, s3⟩ := read_children esc es hg.2
    refine ⟨.text c!"\n" :: .elem n as c :: content, ⟨a1, s1⟩, ?_, ⟨rfl, a3, s4⟩, ?_, ?_⟩
    · simp only [characters, List.all_append, s2]; decide
    · intro hesc
      rw [childrenText, a4 hesc, s5 hesc]
      simp [printAll, printXml]
    · intro fuel rest xs r hf hrest
      have hname : XmlName e.name := by
        obtain ⟨name, attrs, children, text⟩ := e
        exact hg.1.1
      have ht : childrenText esc (e :: es) ++ rest = c!"\n" ++ (e.toText esc ++ (childrenText esc es ++ rest)) := by
        rw [childrenText]; simp
      rw [ht] at hf ⊢
      obtain ⟨fuel, rfl⟩ : ∃ f, fuel = f + 1 := ⟨fuel - 1, by omega⟩
      obtain ⟨t, ht1, -⟩ := toText_head esc e hname
      refine readContent_text (by simp) (by simp) (by rw [ht1]; simp) (by decide) ?_
      refine a2 fuel (childrenText esc es ++ rest) (content ++ xs) r (by simp at hf ⊢; omega) ?_
      intro f hf'
      exact s3 f rest xs r hf' hrest
end

/-- The text of an element is read back as a tree that shows the element and is laid out as it should be. -/
theorem readXml_tidy (esc : Str → Str) (e : Element) (h : GoodElement (GoodText esc) e) :
    ∃ x, readXml (e.toText esc) = some x ∧ Shows e x ∧ Tidy x ∧ ((∀ t, esc t = t) → e.toText esc = printXml x) := by
  obtain ⟨n, as, c, h1, h3, h4, h2⟩ := read_element esc e h
  refine ⟨.elem n as c, ?_, h1, h3, h4⟩
  have := h2 ((e.toText esc).length + 1) [] [] [] (by simp) (by
    intro f hf
    obtain ⟨f, rfl⟩ : ∃ f', f = f' + 1 := ⟨f - 1, by simp at hf; omega⟩
    rw [readContent])
  rw [List.append_nil] at this
  rw [readXml, this]
  rfl

/-- The text of an element is read back as a tree that shows the element. -/
theorem readXml_toText (esc : Str → Str) (e : Element) (h : GoodElement (GoodText esc) e) :
    ∃ x, readXml (e.toText esc) = some x ∧ Shows e x := by
  obtain ⟨x, h1, h2, -⟩ := readXml_tidy esc e h
  exact ⟨x, h1, h2⟩

end Seiren
