import Verif.Model.Reading
import Verif.Proofs.ParseErrors
import Verif.Proofs.ParsePolicy
/-!
# Lemmas about the reads of the parser of tokens

Used by `Verif/Props/Reading.lean`.
-/

namespace Seiren

/-- A parser succeeds and leaves `rest`. -/
def Gives {α : Type} (p : LP α) (ts rest : List Token) : Prop := ∃ a alt, p ts = .ok (a, alt, rest)

/-- A parser fails. -/
def Stopped {α : Type} (p : LP α) (ts : List Token) : Prop := ∃ e, p ts = .error e

section
variable {α β : Type} {pol : ChoicePolicy} {p : LP α} {q : LP β} {ts : List Token}

theorem gives_or_stopped (p : LP α) (ts : List Token) : (∃ rest, Gives p ts rest) ∨ Stopped p ts := by
  cases h : p ts with
  | error e => exact .inr ⟨e, h⟩
  | ok r => exact .inl ⟨r.2.2, r.1, r.2.1, h⟩

theorem gives_unique {r r' : List Token} (h : Gives p ts r) (h' : Gives p ts r') : r = r' := by
  obtain ⟨a, alt, h⟩ := h
  obtain ⟨a', alt', h'⟩ := h'
  rw [h] at h'
  cases h'
  rfl

theorem not_gives_stops {r : List Token} (h : Gives p ts r) : ¬ Stopped p ts := by
  obtain ⟨a, alt, h⟩ := h
  rintro ⟨e, h'⟩
  rw [h] at h'
  cases h'

theorem tokenReadsAfter_gives {r : List Token} (h : Gives p ts r) (f : List Token → Nat) : tokenReadsAfter (p ts) f = f r := by
  obtain ⟨a, alt, h⟩ := h
  rw [h]
  rfl

theorem tokenReadsAfter_stops (h : Stopped p ts) (f : List Token → Nat) : tokenReadsAfter (p ts) f = 0 := by
  obtain ⟨e, h⟩ := h
  rw [h]
  rfl

theorem gives_map {f : α → β} {r : List Token} : Gives (lMap f p) ts r ↔ Gives p ts r := by
  unfold Gives lMap
  cases h : p ts with
  | error e => simp
  | ok x => obtain ⟨a, alt, r'⟩ := x; simp

theorem stops_map {f : α → β} : Stopped (lMap f p) ts ↔ Stopped p ts := by
  unfold Stopped lMap
  cases h : p ts with
  | error e => simp
  | ok x => simp

theorem gThen_ok_ok {a : α} {alt : Option Located} {m : List Token} {b : β} {alt' : Option Located} {r : List Token} (h : p ts = .ok (a, alt, m)) (h' : q m = .ok (b, alt', r)) :
    gThen pol p q ts = .ok ((a, b), mergeAltsWith pol alt alt', r) := by
  simp only [gThen, h, h']

theorem gThen_ok_error {a : α} {alt : Option Located} {m : List Token} {e : Located} (h : p ts = .ok (a, alt, m)) (h' : q m = .error e) :
    gThen pol p q ts = .error (e.maxOptWith pol alt) := by
  simp only [gThen, h, h']

theorem gThen_error {e : Located} (h : p ts = .error e) : gThen pol p q ts = .error e := by
  simp only [gThen, h]

theorem gives_then {r : List Token} : Gives (gThen pol p q) ts r ↔ ∃ m, Gives p ts m ∧ Gives q m r := by
  constructor
  · rintro ⟨x, alt, h⟩
    cases h1 : p ts with
    | error e => rw [gThen_error h1] at h; cases h
    | ok y =>
      obtain ⟨a, alt1, m⟩ := y
      cases h2 : q m with
      | error e => rw [gThen_ok_error h1 h2] at h; cases h
      | ok z =>
        obtain ⟨b, alt2, r'⟩ := z
        rw [gThen_ok_ok h1 h2] at h
        cases h
        exact ⟨m, ⟨a, alt1, h1⟩, b, alt2, h2⟩
  · rintro ⟨m, ⟨a, alt1, h1⟩, b, alt2, h2⟩
    exact ⟨_, _, gThen_ok_ok h1 h2⟩

theorem stops_then : Stopped (gThen pol p q) ts ↔ Stopped p ts ∨ ∃ m, Gives p ts m ∧ Stopped q m := by
  constructor
  · rintro ⟨x, h⟩
    cases h1 : p ts with
    | error e => exact .inl ⟨e, h1⟩
    | ok y =>
      obtain ⟨a, alt1, m⟩ := y
      cases h2 : q m with
      | error e => exact .inr ⟨m, ⟨a, alt1, h1⟩, e, h2⟩
      | ok z =>
        obtain ⟨b, alt2, r'⟩ := z
        rw [gThen_ok_ok h1 h2] at h
        cases h
  · rintro (⟨e, h1⟩ | ⟨m, ⟨a, alt1, h1⟩, e, h2⟩)
    · exact ⟨_, gThen_error h1⟩
    · exact ⟨_, gThen_ok_error h1 h2⟩

theorem gives_choice {p q : LP α} {r : List Token} : Gives (gChoice pol p q) ts r ↔ Gives p ts r ∨ (Stopped p ts ∧ Gives q ts r) := by
  unfold Gives Stopped gChoice
  cases h : p ts with
  | ok x => simp
  | error e =>
    cases h' : q ts with
    | error e' => simp
    | ok y =>
      obtain ⟨b, alt', r'⟩ := y
      simp

theorem stops_choice {p q : LP α} : Stopped (gChoice pol p q) ts ↔ Stopped p ts ∧ Stopped q ts := by
  unfold Stopped gChoice
  cases h : p ts with
  | ok x => simp
  | error e =>
    cases h' : q ts with
    | error e' => simp
    | ok y => simp

theorem gives_orNot {r : List Token} : Gives (lOrNot p) ts r ↔ Gives p ts r ∨ (Stopped p ts ∧ r = ts) := by
  unfold Gives Stopped lOrNot
  cases h : p ts with
  | ok x =>
    obtain ⟨a, alt, r'⟩ := x
    simp
  | error e =>
    simp [eq_comm]

theorem not_stops_orNot : ¬ Stopped (lOrNot p) ts := by
  rcases gives_or_stopped p ts with ⟨r, h⟩ | h
  · exact not_gives_stops (gives_orNot.2 (.inl h))
  · exact not_gives_stops (gives_orNot.2 (.inr ⟨h, rfl⟩))

theorem gives_just {t : Token} {r : List Token} : Gives (lJust t) ts r ↔ ts = t :: r := by
  unfold Gives
  cases ts with
  | nil => simp [lJust]
  | cons x ts =>
    simp only [lJust]
    by_cases h : t = x
    · subst h
      simp
    · simp [h, eq_comm]

theorem gives_ident {r : List Token} : Gives lIdent ts r ↔ ∃ s, ts = .ident s :: r := by
  unfold Gives lIdent
  split
  · simp
  · rename_i h
    simp only [reduceCtorEq, exists_false, false_iff, not_exists]
    rintro s rfl
    exact h _ _ rfl

end

theorem gSep_eq (pol : ChoicePolicy) (ts : List Token) : (∀ r, Gives (gSep pol) ts r ↔ ∃ t, isSep t ∧ ts = t :: r) := by
  intro r
  rw [gSep, gives_choice, gives_just, gives_just]
  constructor
  · rintro (h | ⟨-, h⟩)
    · exact ⟨_, rfl, h⟩
    · exact ⟨_, rfl, h⟩
  · rintro ⟨t, ht, rfl⟩
    have : t = .newline ∨ t = .ctrl ';' := by
      simpa [isSep] using ht
    rcases this with rfl | rfl
    · exact .inl rfl
    · exact .inr ⟨⟨_, rfl⟩, rfl⟩

theorem skipPad_sep {t : Token} (h : isSep t) (ts : List Token) : skipPad (t :: ts) = skipPad ts := by
  rw [skipPad_cons, if_pos h]

/-- The padding succeeds, leaves what follows the separators, and reads each of them at most twice. -/
theorem mPad_loop (pol : ChoicePolicy) (fuel : Nat) (alt : Option Located) (ts : List Token) (h : ts.length < fuel) :
    (gRepeatedLoop pol (gSep pol) fuel alt ts).2.2 = skipPad ts ∧
      tokenRepeatedReads (mSep pol) fuel ts + 2 * (skipPad ts).length ≤ 2 * ts.length + 2 := by
  induction fuel generalizing alt ts with
  | zero => omega
  | succ fuel ih =>
    have hr : ∀ ts, (mSep pol).reads ts ≤ 2 := by
      intro ts
      show 1 + _ ≤ 2
      split <;> simp [mJust]
    have hrun : (mSep pol).run = gSep pol := rfl
    rw [gRepeatedLoop, tokenRepeatedReads, hrun]
    have h2 := hr ts
    rcases gives_or_stopped (gSep pol) ts with ⟨r, hg⟩ | hg
    · rw [tokenReadsAfter_gives hg]
      obtain ⟨t, ht, rfl⟩ := (gSep_eq pol ts r).1 hg
      obtain ⟨a, alt', hg⟩ := hg
      rw [hg, skipPad_sep ht]
      simp only [List.length_cons] at h ⊢
      obtain ⟨i1, i2⟩ := ih (mergeAltsWith pol alt alt') r (by omega)
      exact ⟨i1, by omega⟩
    · rw [tokenReadsAfter_stops hg]
      have hs : skipPad ts = ts := by
        cases ts with
        | nil => rfl
        | cons t r =>
          rw [skipPad_cons, if_neg]
          intro ht
          exact not_gives_stops ((gSep_eq pol _ r).2 ⟨t, ht, rfl⟩) hg
      obtain ⟨e, hg⟩ := hg
      rw [hg, hs]
      exact ⟨rfl, by omega⟩

theorem gives_pad {pol : ChoicePolicy} {ts r : List Token} : Gives (gPad pol) ts r ↔ r = skipPad ts := by
  have h := (mPad_loop pol (ts.length + 1) none ts (by omega)).1
  constructor
  · rintro ⟨a, alt, hh⟩
    have hh : Except.ok (gRepeatedLoop pol (gSep pol) (ts.length + 1) none ts) = Except.ok (a, alt, r) := hh
    cases hh' : gRepeatedLoop pol (gSep pol) (ts.length + 1) none ts with
    | mk x y =>
      rw [hh'] at hh h
      cases hh
      exact h
  · rintro rfl
    refine ⟨(gRepeatedLoop pol (gSep pol) (ts.length + 1) none ts).1, (gRepeatedLoop pol (gSep pol) (ts.length + 1) none ts).2.1, ?_⟩
    rw [← h]
    rfl

theorem mPad_le (pol : ChoicePolicy) (ts : List Token) : (mPad pol).reads ts + 2 * (skipPad ts).length ≤ 2 * ts.length + 2 :=
  (mPad_loop pol (ts.length + 1) none ts (by omega)).2

/-! ## What runs -/

section
variable {α β : Type} (pol : ChoicePolicy) (p : CountedLP α) (q : CountedLP β)
theorem mMap_run (f : α → β) : (mMap f p).run = lMap f p.run := rfl
theorem mThen_run : (mThen pol p q).run = gThen pol p.run q.run := rfl
theorem mIgnoreThen_run : (mIgnoreThen pol p q).run = gIgnoreThen pol p.run q.run := rfl
theorem mThenIgnore_run : (mThenIgnore pol p q).run = gThenIgnore pol p.run q.run := rfl
theorem mOrNot_run : (mOrNot p).run = lOrNot p.run := rfl
theorem mRepeated_run : (mRepeated pol p).run = gRepeated pol p.run := rfl
theorem mPad_run : (mPad pol).run = gPad pol := rfl
theorem mPadded_run : (mPadded pol p).run = gPadded pol p.run := rfl
theorem mEntity_run : (mEntity pol).run = gEntity pol := rfl
theorem mEntityField_run : (mEntityField pol).run = gEntityField pol := rfl
theorem mItems_run : (mItems pol p).run = gItems pol p.run := rfl
end
theorem mEntityFields_run (pol : ChoicePolicy) : (mEntityFields pol).run = gEntityFields pol := by
  rw [mEntityFields, mMap_run, mPadded_run, mItems_run, mEntityField_run]; rfl
theorem mEntityDefinition_run (pol : ChoicePolicy) : (mEntityDefinition pol).run = gEntityDefinition pol := by
  rw [mEntityDefinition, mMap_run, mThenIgnore_run, mThen_run, mThenIgnore_run, mThenIgnore_run, mPad_run, mEntityFields_run]; rfl
theorem mRelation_run (pol : ChoicePolicy) : (mRelation pol).run = gRelation pol := by
  rw [mRelation, mMap_run, mThen_run, mIgnoreThen_run, mPadded_run, mEntity_run]; rfl
theorem mModuleEntry_run (pol : ChoicePolicy) : (mModuleEntry pol).run = gModuleEntry pol := by
  show gChoice pol (lMap _ (mEntityDefinition pol).run) (lMap _ (mRelation pol).run) = _
  rw [mEntityDefinition_run, mRelation_run]; rfl
theorem mModuleEntries_run (pol : ChoicePolicy) : (mModuleEntries pol).run = gModuleEntries pol := by
  rw [mModuleEntries, mMap_run, mItems_run, mModuleEntry_run]; rfl
theorem mModule_run (pol : ChoicePolicy) : (mModule pol).run = gModule pol := by
  simp only [mModule, mMap_run, mThen_run, mIgnoreThen_run, mThenIgnore_run, mPadded_run, mModuleEntries_run, mOrNot_run]
  rfl

/-! ## Bounds -/

section
variable {α β : Type} {pol : ChoicePolicy}

theorem mThen_gives {p : CountedLP α} {q : CountedLP β} {ts m : List Token} (h : Gives p.run ts m) : (mThen pol p q).reads ts = p.reads ts + q.reads m := by
  show p.reads ts + tokenReadsAfter (p.run ts) q.reads = _
  rw [tokenReadsAfter_gives h]

theorem mThen_stops {p : CountedLP α} {q : CountedLP β} {ts : List Token} (h : Stopped p.run ts) : (mThen pol p q).reads ts = p.reads ts := by
  show p.reads ts + tokenReadsAfter (p.run ts) q.reads = _
  rw [tokenReadsAfter_stops h]
  rfl

theorem mThen_const {p : CountedLP α} {q : CountedLP β} {i j : Nat} (hp : ∀ ts, p.reads ts ≤ i) (hq : ∀ ts, q.reads ts ≤ j) (ts : List Token) :
    (mThen pol p q).reads ts ≤ i + j := by
  rcases gives_or_stopped p.run ts with ⟨m, h⟩ | h
  · rw [mThen_gives h]
    exact Nat.add_le_add (hp _) (hq _)
  · rw [mThen_stops h]
    exact Nat.le_add_right_of_le (hp _)

theorem mChoice_gives {p q : CountedLP α} {ts r : List Token} (h : Gives p.run ts r) : (mChoice pol p q).reads ts = p.reads ts := by
  obtain ⟨a, alt, h⟩ := h
  show p.reads ts + (match p.run ts with | .ok _ => 0 | .error _ => q.reads ts) = _
  rw [h]
  rfl

theorem mChoice_stops {p q : CountedLP α} {ts : List Token} (h : Stopped p.run ts) : (mChoice pol p q).reads ts = p.reads ts + q.reads ts := by
  obtain ⟨e, h⟩ := h
  show p.reads ts + (match p.run ts with | .ok _ => 0 | .error _ => q.reads ts) = _
  rw [h]

theorem mChoice_const {p q : CountedLP α} {i j : Nat} (hp : ∀ ts, p.reads ts ≤ i) (hq : ∀ ts, q.reads ts ≤ j) (ts : List Token) :
    (mChoice pol p q).reads ts ≤ i + j := by
  rcases gives_or_stopped p.run ts with ⟨m, h⟩ | h
  · rw [mChoice_gives h]
    exact Nat.le_add_right_of_le (hp _)
  · rw [mChoice_stops h]
    exact Nat.add_le_add (hp _) (hq _)

theorem mJust_const (t : Token) (ts : List Token) : (mJust t).reads ts ≤ 1 := Nat.le_refl 1

theorem mIdent_const (ts : List Token) : mIdent.reads ts ≤ 1 := Nat.le_refl 1

theorem mMap_const {f : α → β} {p : CountedLP α} {i : Nat} (hp : ∀ ts, p.reads ts ≤ i) (ts : List Token) : (mMap f p).reads ts ≤ i := hp ts

theorem mOrNot_const {p : CountedLP α} {i : Nat} (hp : ∀ ts, p.reads ts ≤ i) (ts : List Token) : (mOrNot p).reads ts ≤ i := hp ts

/-- A repetition whose last, failing, attempt reads no more than the separators and a fixed number of tokens. -/
theorem repeated_look {p : CountedLP α} {A C : Nat} (hok : ∀ ts r, Gives p.run ts r → p.reads ts + A * r.length ≤ A * ts.length)
    (herr : ∀ ts, Stopped p.run ts → p.reads ts + A * (skipPad ts).length ≤ A * ts.length + C) (fuel : Nat) (alt : Option Located) (ts : List Token) :
    tokenRepeatedReads p fuel ts + A * (skipPad (gRepeatedLoop pol p.run fuel alt ts).2.2).length ≤ A * ts.length + C := by
  induction fuel generalizing alt ts with
  | zero =>
    have := Nat.mul_le_mul_left A (skipPad_length_le ts)
    show 0 + A * (skipPad ts).length ≤ _
    omega
  | succ fuel ih =>
    rw [gRepeatedLoop, tokenRepeatedReads]
    rcases gives_or_stopped p.run ts with ⟨r, h⟩ | h
    · rw [tokenReadsAfter_gives h]
      have h1 := hok ts r h
      obtain ⟨a, alt', h⟩ := h
      rw [h]
      have h2 := ih (mergeAltsWith pol alt alt') r
      show p.reads ts + _ + A * (skipPad (gRepeatedLoop pol p.run fuel (mergeAltsWith pol alt alt') r).2.2).length ≤ _
      omega
    · rw [tokenReadsAfter_stops h]
      have h1 := herr ts h
      obtain ⟨e, h⟩ := h
      rw [h]
      exact h1

/-- A repetition whose last, failing, attempt may read everything. -/
theorem repeated_weak {p : CountedLP α} {A C : Nat} (hok : ∀ ts r, Gives p.run ts r → p.reads ts + A * r.length ≤ A * ts.length)
    (herr : ∀ ts, Stopped p.run ts → p.reads ts ≤ A * ts.length + C) (fuel : Nat) (ts : List Token) :
    tokenRepeatedReads p fuel ts ≤ A * ts.length + C := by
  induction fuel generalizing ts with
  | zero => exact Nat.zero_le _
  | succ fuel ih =>
    rw [tokenRepeatedReads]
    rcases gives_or_stopped p.run ts with ⟨r, h⟩ | h
    · rw [tokenReadsAfter_gives h]
      have h1 := hok ts r h
      have h2 := ih r
      omega
    · rw [tokenReadsAfter_stops h]
      exact herr ts h

theorem gives_repeated {p : LP α} (hp : ∀ ts r, Gives p ts r → r.length ≤ ts.length) (fuel : Nat) (alt : Option Located) (ts : List Token) :
    (gRepeatedLoop pol p fuel alt ts).2.2.length ≤ ts.length := by
  induction fuel generalizing alt ts with
  | zero => exact le_rfl
  | succ fuel ih =>
    rw [gRepeatedLoop]
    cases h : p ts with
    | error e => exact le_rfl
    | ok x =>
      obtain ⟨a, alt', r⟩ := x
      exact (ih (mergeAltsWith pol alt alt') r).trans (hp ts r ⟨a, alt', h⟩)

end

variable (pol : ChoicePolicy)

theorem mSep_const (ts : List Token) : (mSep pol).reads ts ≤ 2 := mChoice_const (mJust_const _) (mJust_const _) ts

theorem mFieldType_const (ts : List Token) : (mFieldType pol).reads ts ≤ 4 :=
  mChoice_const (mMap_const (mJust_const _)) (mChoice_const (mMap_const (mJust_const _)) (mChoice_const (mMap_const (mJust_const _)) (mMap_const (mJust_const _)))) ts

theorem mFieldKey_const (ts : List Token) : (mFieldKey pol).reads ts ≤ 2 := mChoice_const (mMap_const (mJust_const _)) (mMap_const (mJust_const _)) ts

theorem mEntityField_const (ts : List Token) : (mEntityField pol).reads ts ≤ 7 :=
  mMap_const (mThen_const (mThen_const mIdent_const (mFieldType_const pol)) (mOrNot_const (mFieldKey_const pol))) ts

theorem mEntity_const (ts : List Token) : (mEntity pol).reads ts ≤ 3 :=
  mMap_const (mThen_const mIdent_const (mMap_const (mThen_const (mJust_const _) (mOrNot_const mIdent_const)))) ts

theorem gives_fieldType {ts r : List Token} (h : Gives (gFieldType pol) ts r) : r.length + 1 = ts.length := by
  simp only [gFieldType, gives_choice, gives_map, gives_just] at h
  rcases h with rfl | ⟨-, rfl | ⟨-, rfl | ⟨-, rfl⟩⟩⟩ <;> rfl

theorem gives_fieldKey {ts r : List Token} (h : Gives (gFieldKey pol) ts r) : r.length + 1 = ts.length := by
  simp only [gFieldKey, gives_choice, gives_map, gives_just] at h
  rcases h with rfl | ⟨-, rfl⟩ <;> rfl

theorem gives_entityField {ts r : List Token} (h : Gives (gEntityField pol) ts r) : r.length + 2 ≤ ts.length := by
  simp only [gEntityField, gives_map, gives_then, gives_orNot, gives_ident] at h
  obtain ⟨m, ⟨m', ⟨s, rfl⟩, h2⟩, h3⟩ := h
  have := gives_fieldType pol h2
  rcases h3 with h3 | ⟨-, rfl⟩
  · have := gives_fieldKey pol h3
    simp
    omega
  · simp
    omega

theorem gives_entity {ts r : List Token} (h : Gives (gEntity pol) ts r) : r.length + 2 ≤ ts.length ∧ ∃ s ts', ts = .ident s :: .ctrl '.' :: ts' := by
  simp only [gEntity, gIgnoreThen, gives_map, gives_then, gives_orNot, gives_ident, gives_just] at h
  obtain ⟨m, ⟨s, rfl⟩, m', rfl, h3⟩ := h
  refine ⟨?_, s, m', rfl⟩
  rcases h3 with ⟨s', rfl⟩ | ⟨-, rfl⟩
  · simp
  · simp

/-! ### Items -/

section
variable {α : Type} {pol : ChoicePolicy}

theorem gives_nextItem {item : CountedLP α} {ts r : List Token} :
    Gives (mNextItem pol item).run ts r ↔ ∃ t m, isSep t ∧ ts = t :: m ∧ Gives item.run (skipPad m) r := by
  show Gives (lMap _ (gThen pol (lMap _ (gThen pol (gSep pol) (gPad pol))) item.run)) ts r ↔ _
  simp only [gives_map, gives_then, gives_pad, gSep_eq]
  constructor
  · rintro ⟨m, ⟨m', ⟨t, ht, rfl⟩, rfl⟩, h⟩
    exact ⟨t, m', ht, rfl, h⟩
  · rintro ⟨t, m, ht, rfl, h⟩
    exact ⟨_, ⟨m, ⟨t, ht, rfl⟩, rfl⟩, h⟩

/-- The reads of a further item: of the separators, and of the item after them. -/
theorem mNextItem_le (item : CountedLP α) (ts : List Token) :
    (mNextItem pol item).reads ts ≤ 2 ∨ ∃ t m, isSep t ∧ ts = t :: m ∧ (mNextItem pol item).reads ts + 2 * (skipPad m).length ≤ 2 * m.length + 4 + item.reads (skipPad m) := by
  show (mThen pol (mIgnoreThen pol (mSep pol) (mPad pol)) item).reads ts ≤ 2 ∨ ∃ t m, isSep t ∧ ts = t :: m ∧
    (mThen pol (mIgnoreThen pol (mSep pol) (mPad pol)) item).reads ts + 2 * (skipPad m).length ≤ _
  have hs := mSep_const pol ts
  rcases gives_or_stopped (gSep pol) ts with ⟨m, h⟩ | h
  · right
    obtain ⟨t, ht, rfl⟩ := (gSep_eq pol ts m).1 h
    refine ⟨t, m, ht, rfl, ?_⟩
    have hg : Gives (mIgnoreThen pol (mSep pol) (mPad pol)).run (t :: m) (skipPad m) := by
      show Gives (lMap _ (gThen pol (gSep pol) (gPad pol))) _ _
      rw [gives_map, gives_then]
      exact ⟨m, h, gives_pad.2 rfl⟩
    rw [mThen_gives hg]
    have e : (mIgnoreThen pol (mSep pol) (mPad pol)).reads (t :: m) = (mSep pol).reads (t :: m) + (mPad pol).reads m := mThen_gives (pol := pol) (p := mSep pol) h
    have := mPad_le pol m
    omega
  · left
    have hg : Stopped (mIgnoreThen pol (mSep pol) (mPad pol)).run ts := by
      show Stopped (lMap _ (gThen pol (gSep pol) (gPad pol))) _
      rw [stops_map, stops_then]
      exact .inl h
    rw [mThen_stops hg]
    have e : (mIgnoreThen pol (mSep pol) (mPad pol)).reads ts = (mSep pol).reads ts := mThen_stops (pol := pol) (p := mSep pol) (q := mPad pol) h
    omega

theorem gives_repeated_iff {p : LP α} {ts r : List Token} : Gives (gRepeated pol p) ts r ↔ r = (gRepeatedLoop pol p (ts.length + 1) none ts).2.2 := by
  constructor
  · rintro ⟨a, alt, hh⟩
    have hh : Except.ok (gRepeatedLoop pol p (ts.length + 1) none ts) = Except.ok (a, alt, r) := hh
    cases hh' : gRepeatedLoop pol p (ts.length + 1) none ts with
    | mk x y =>
      rw [hh'] at hh
      cases hh
      rfl
  · rintro rfl
    exact ⟨(gRepeatedLoop pol p (ts.length + 1) none ts).1, (gRepeatedLoop pol p (ts.length + 1) none ts).2.1, rfl⟩

theorem nextItem_length {item : CountedLP α} (hi : ∀ ts r, Gives item.run ts r → r.length ≤ ts.length) {ts r : List Token} (h : Gives (mNextItem pol item).run ts r) :
    r.length ≤ ts.length := by
  obtain ⟨t, m, -, rfl, h1⟩ := gives_nextItem.1 h
  have := hi _ _ h1
  have := skipPad_length_le m
  simp only [List.length_cons]
  omega

theorem mItems_length {item : CountedLP α} (hi : ∀ ts r, Gives item.run ts r → r.length ≤ ts.length) {ts r : List Token} (h : Gives (mItems pol item).run ts r) :
    r.length ≤ ts.length := by
  have h : Gives (lOrNot (lMap _ (gThen pol item.run (gRepeated pol (mNextItem pol item).run)))) ts r := h
  rw [gives_orNot, gives_map, gives_then] at h
  rcases h with ⟨m, h1, h2⟩ | ⟨-, rfl⟩
  · rw [gives_repeated_iff] at h2
    rw [h2]
    exact (gives_repeated (fun ts r => nextItem_length hi) _ _ _).trans (hi _ _ h1)
  · exact le_rfl

end

theorem field_length (ts r : List Token) (h : Gives (mEntityField pol).run ts r) : r.length ≤ ts.length := by
  have := gives_entityField pol (mEntityField_run pol ▸ h)
  omega

/-- The fields: what is read beyond the fields are separators, and a fixed number of tokens. -/
theorem fieldItems_le {ts r : List Token} (h : Gives (mItems pol (mEntityField pol)).run ts r) :
    (mItems pol (mEntityField pol)).reads ts + 11 * (skipPad r).length ≤ 11 * ts.length + 9 := by
  have hc := mEntityField_const pol
  have hn := @mNextItem_le _ pol (mEntityField pol)
  have hok : ∀ ts r, Gives (mNextItem pol (mEntityField pol)).run ts r → (mNextItem pol (mEntityField pol)).reads ts + 11 * r.length ≤ 11 * ts.length := by
    intro ts r hg
    obtain ⟨t, m, ht, rfl, h1⟩ := gives_nextItem.1 hg
    have h2 := gives_entityField pol (mEntityField_run pol ▸ h1)
    have h3 := skipPad_length_le m
    rcases hn (t :: m) with h | ⟨t', m', ht', e, h⟩
    · simp only [List.length_cons]
      omega
    · cases e
      have := hc (skipPad m)
      simp only [List.length_cons]
      omega
  have herr : ∀ ts, Stopped (mNextItem pol (mEntityField pol)).run ts →
      (mNextItem pol (mEntityField pol)).reads ts + 11 * (skipPad ts).length ≤ 11 * ts.length + 9 := by
    intro ts hs
    have h3 := skipPad_length_le ts
    rcases hn ts with h | ⟨t, m, ht, rfl, h⟩
    · omega
    · have := hc (skipPad m)
      have := skipPad_length_le m
      rw [skipPad_sep ht]
      simp only [List.length_cons]
      omega
  show (mThen pol (mEntityField pol) (mRepeated pol (mNextItem pol (mEntityField pol)))).reads ts + _ ≤ _
  have h : Gives (lOrNot (lMap _ (gThen pol (mEntityField pol).run (gRepeated pol (mNextItem pol (mEntityField pol)).run)))) ts r := h
  rw [gives_orNot, gives_map, gives_then, stops_map, stops_then] at h
  have h7 := hc ts
  have h3 := skipPad_length_le ts
  rcases h with ⟨m, h1, h2⟩ | ⟨h1 | ⟨m, h1, h2⟩, rfl⟩
  · rw [mThen_gives h1]
    rw [gives_repeated_iff] at h2
    have := @repeated_look _ pol _ _ _ hok herr (m.length + 1) none m
    rw [← h2] at this
    have h4 := gives_entityField pol (mEntityField_run pol ▸ h1)
    have e : (mRepeated pol (mNextItem pol (mEntityField pol))).reads m = tokenRepeatedReads (mNextItem pol (mEntityField pol)) (m.length + 1) m := rfl
    omega
  · rw [mThen_stops h1]
    omega
  · exact absurd h2 (not_gives_stops (gives_repeated_iff.2 rfl))

/-! ### Padding -/

section
variable {α : Type} {pol : ChoicePolicy}

theorem gives_padded {p : LP α} {ts r : List Token} : Gives (gPadded pol p) ts r ↔ ∃ m, Gives p (skipPad ts) m ∧ r = skipPad m := by
  rw [gPadded, gThenIgnore, gIgnoreThen, gives_map, gives_then]
  constructor
  · rintro ⟨m, h1, h2⟩
    rw [gives_map, gives_then] at h1
    obtain ⟨m', h3, h4⟩ := h1
    rw [gives_pad] at h2 h3
    exact ⟨m, h3 ▸ h4, h2⟩
  · rintro ⟨m, h1, h2⟩
    exact ⟨m, gives_map.2 (gives_then.2 ⟨_, gives_pad.2 rfl, h1⟩), gives_pad.2 h2⟩

theorem mPadded_gives {p : CountedLP α} {ts m : List Token} (h : Gives p.run (skipPad ts) m) :
    (mPadded pol p).reads ts = (mPad pol).reads ts + p.reads (skipPad ts) + (mPad pol).reads m := by
  have h0 : Gives (mPad pol).run ts (skipPad ts) := gives_pad.2 rfl
  have h1 : Gives (mIgnoreThen pol (mPad pol) p).run ts m := gives_map.2 (gives_then.2 ⟨_, gives_pad.2 rfl, h⟩)
  have e1 : (mPadded pol p).reads ts = _ := mThen_gives (pol := pol) (q := mPad pol) h1
  have e2 : (mIgnoreThen pol (mPad pol) p).reads ts = _ := mThen_gives (pol := pol) (q := p) h0
  rw [e1, e2]

theorem mPadded_stops {p : CountedLP α} {ts : List Token} (h : Stopped p.run (skipPad ts)) :
    (mPadded pol p).reads ts = (mPad pol).reads ts + p.reads (skipPad ts) := by
  have h0 : Gives (mPad pol).run ts (skipPad ts) := gives_pad.2 rfl
  have h1 : Stopped (mIgnoreThen pol (mPad pol) p).run ts := stops_map.2 (stops_then.2 (.inr ⟨_, gives_pad.2 rfl, h⟩))
  have e1 : (mPadded pol p).reads ts = _ := mThen_stops (pol := pol) (q := mPad pol) h1
  have e2 : (mIgnoreThen pol (mPad pol) p).reads ts = _ := mThen_gives (pol := pol) (q := p) h0
  rw [e1, e2]

end

/-! ### Entries -/

theorem gives_fields {ts : List Token} : ∃ r, Gives (mEntityFields pol).run ts r ∧ (mEntityFields pol).reads ts + 13 * r.length ≤ 13 * ts.length + 13 := by
  obtain ⟨m, hm⟩ : ∃ m, Gives (mItems pol (mEntityField pol)).run (skipPad ts) m := by
    rcases gives_or_stopped (mItems pol (mEntityField pol)).run (skipPad ts) with h | h
    · exact h
    · exact absurd h not_stops_orNot
  have h1 := fieldItems_le pol hm
  have h2 := mItems_length (field_length pol) hm
  have h3 := skipPad_length_le ts
  have h4 := skipPad_length_le m
  have h5 := mPad_le pol ts
  have h6 := mPad_le pol m
  refine ⟨skipPad m, gives_map.2 (gives_padded.2 ⟨m, hm, rfl⟩), ?_⟩
  have e : (mEntityFields pol).reads ts = _ := mPadded_gives (pol := pol) hm
  omega

/-- A definition of an entity: each token is read a fixed number of times. -/
theorem mEntityDefinition_le (ts : List Token) :
    (∀ r, Gives (mEntityDefinition pol).run ts r → (mEntityDefinition pol).reads ts + 13 * r.length ≤ 13 * ts.length ∧ r.length + 3 ≤ ts.length) ∧
      (mEntityDefinition pol).reads ts ≤ 13 * ts.length + 18 ∧
      (∀ s ts', ts = .ident s :: .ctrl '.' :: ts' → (mEntityDefinition pol).reads ts ≤ 5) := by
  let h0 := mThenIgnore pol mIdent (mPad pol)
  let h1 := mThenIgnore pol h0 (mJust (.ctrl '{'))
  let h2 := mThen pol h1 (mEntityFields pol)
  let h3 := mThenIgnore pol h2 (mJust (.ctrl '}'))
  have e0 : ∀ ts, (mEntityDefinition pol).reads ts = h3.reads ts := fun _ => rfl
  have g0 : ∀ ts r, Gives (mEntityDefinition pol).run ts r ↔ Gives h3.run ts r := fun _ _ => gives_map
  rcases gives_or_stopped lIdent ts with ⟨t1, i⟩ | i
  · have a1 : Gives h0.run ts (skipPad t1) := gives_map.2 (gives_then.2 ⟨t1, i, gives_pad.2 rfl⟩)
    have b1 : h0.reads ts = mIdent.reads ts + (mPad pol).reads t1 := mThen_gives (pol := pol) (p := mIdent) (q := mPad pol) i
    obtain ⟨s, rfl⟩ := gives_ident.1 i
    have c1 := mPad_le pol t1
    have c2 := skipPad_length_le t1
    have c3 := mIdent_const (.ident s :: t1)
    have b2 : h1.reads (.ident s :: t1) = h0.reads (.ident s :: t1) + (mJust (.ctrl '{')).reads (skipPad t1) := mThen_gives (pol := pol) (q := mJust (.ctrl '{')) a1
    have c4 := mJust_const (.ctrl '{') (skipPad t1)
    rcases gives_or_stopped (lJust (.ctrl '{')) (skipPad t1) with ⟨t2, j⟩ | j
    · have a2 : Gives h1.run (.ident s :: t1) t2 := gives_map.2 (gives_then.2 ⟨_, a1, j⟩)
      have hj := gives_just.1 j
      obtain ⟨t3, a3, c5⟩ := @gives_fields pol t2
      have b3 : h2.reads (.ident s :: t1) = h1.reads (.ident s :: t1) + (mEntityFields pol).reads t2 := mThen_gives (pol := pol) (q := mEntityFields pol) a2
      have a4 : Gives h2.run (.ident s :: t1) t3 := gives_then.2 ⟨_, a2, a3⟩
      have b4 : h3.reads (.ident s :: t1) = h2.reads (.ident s :: t1) + (mJust (.ctrl '}')).reads t3 := mThen_gives (pol := pol) (q := mJust (.ctrl '}')) a4
      have c6 := mJust_const (.ctrl '}') t3
      have hl := congrArg List.length hj
      rw [e0]
      simp only [List.length_cons] at hl ⊢
      refine ⟨?_, by omega, ?_⟩
      · intro r hr
        obtain ⟨m, hm, hm'⟩ := gives_then.1 (gives_map.1 ((g0 _ _).1 hr))
        cases gives_unique a4 hm
        have hx : t3.length = r.length + 1 := congrArg List.length (gives_just.1 hm')
        have hlen : t3.length ≤ t2.length := by
          obtain ⟨m, hm1, rfl⟩ := gives_padded.1 (gives_map.1 a3)
          have := mItems_length (field_length pol) hm1
          have := skipPad_length_le m
          have := skipPad_length_le t2
          omega
        constructor
        · omega
        · omega
      · rintro s' ts' e
        cases e
        rw [skipPad_cons, if_neg (by decide)] at hj
        cases hj
    · have a2 : Stopped h1.run (.ident s :: t1) := stops_map.2 (stops_then.2 (.inr ⟨_, a1, j⟩))
      have a3 : Stopped h2.run (.ident s :: t1) := stops_then.2 (.inl a2)
      have b3 : h2.reads (.ident s :: t1) = h1.reads (.ident s :: t1) := mThen_stops (pol := pol) (q := mEntityFields pol) a2
      have b4 : h3.reads (.ident s :: t1) = h2.reads (.ident s :: t1) := mThen_stops (pol := pol) (q := mJust (.ctrl '}')) a3
      rw [e0]
      refine ⟨?_, ?_, ?_⟩
      · intro r hr
        exact absurd (stops_map.2 (stops_then.2 (.inl a3))) (not_gives_stops ((g0 _ _).1 hr))
      · simp only [List.length_cons]
        omega
      · rintro s' ts' e
        cases e
        rw [skipPad_cons, if_neg (by decide)] at c1
        omega
  · have a1 : Stopped h0.run ts := stops_map.2 (stops_then (p := lIdent) (q := gPad pol) (pol := pol) |>.2 (.inl i))
    have a2 : Stopped h1.run ts := stops_map.2 (stops_then.2 (.inl a1))
    have a3 : Stopped h2.run ts := stops_then.2 (.inl a2)
    have b1 : h0.reads ts = mIdent.reads ts := mThen_stops (pol := pol) (p := mIdent) (q := mPad pol) i
    have b2 : h1.reads ts = h0.reads ts := mThen_stops (pol := pol) (q := mJust (.ctrl '{')) a1
    have b3 : h2.reads ts = h1.reads ts := mThen_stops (pol := pol) (q := mEntityFields pol) a2
    have b4 : h3.reads ts = h2.reads ts := mThen_stops (pol := pol) (q := mJust (.ctrl '}')) a3
    have c3 := mIdent_const ts
    rw [e0]
    refine ⟨?_, by omega, fun _ _ _ => by omega⟩
    intro r hr
    exact absurd (stops_map.2 (stops_then.2 (.inl a3))) (not_gives_stops ((g0 _ _).1 hr))

/-- A relation. -/
theorem mRelation_le (ts : List Token) :
    (mRelation pol).reads ts ≤ 2 * ts.length + 11 ∧
      ∀ r, Gives (mRelation pol).run ts r → (mRelation pol).reads ts + 2 * r.length ≤ 2 * ts.length + 11 ∧ r.length + 5 ≤ ts.length ∧ ∃ s ts', ts = .ident s :: .ctrl '.' :: ts' := by
  let q := mIgnoreThen pol (mPadded pol (mJust .edge)) (mEntity pol)
  have e0 : ∀ ts, (mRelation pol).reads ts = (mThen pol (mEntity pol) q).reads ts := fun _ => rfl
  have g0 : ∀ ts r, Gives (mRelation pol).run ts r ↔ ∃ m, Gives (mEntity pol).run ts m ∧ Gives q.run m r := fun _ _ => gives_map.trans gives_then
  have hq : ∀ ts, q.reads ts ≤ 2 * ts.length + 8 ∧ ∀ r, Gives q.run ts r → q.reads ts + 2 * r.length ≤ 2 * ts.length + 8 ∧ r.length + 3 ≤ ts.length := by
    intro ts
    have c1 := mPad_le pol ts
    have c2 := skipPad_length_le ts
    have c3 := mJust_const .edge (skipPad ts)
    rcases gives_or_stopped (lJust .edge) (skipPad ts) with ⟨t1, j⟩ | j
    · have a1 : Gives (mPadded pol (mJust .edge)).run ts (skipPad t1) := gives_padded.2 ⟨_, j, rfl⟩
      have b1 : (mPadded pol (mJust .edge)).reads ts = _ := mPadded_gives (pol := pol) (p := mJust .edge) j
      have b2 : q.reads ts = (mPadded pol (mJust .edge)).reads ts + (mEntity pol).reads (skipPad t1) := mThen_gives (pol := pol) (q := mEntity pol) a1
      have hl := congrArg List.length (gives_just.1 j)
      have c4 := mPad_le pol t1
      have c5 := skipPad_length_le t1
      have c6 := mEntity_const pol (skipPad t1)
      simp only [List.length_cons] at hl
      refine ⟨by omega, fun r hr => ?_⟩
      obtain ⟨m, hm, hm'⟩ := gives_then.1 (gives_map.1 hr)
      cases gives_unique a1 hm
      have := (gives_entity pol (mEntity_run pol ▸ hm')).1
      constructor
      · omega
      · omega
    · have a1 : Stopped (gPadded pol (lJust .edge)) ts := stops_map.2 (stops_then.2 (.inl (stops_map.2 (stops_then.2 (.inr ⟨_, gives_pad.2 rfl, j⟩)))))
      have b1 : (mPadded pol (mJust .edge)).reads ts = _ := mPadded_stops (pol := pol) (p := mJust .edge) j
      have b2 : q.reads ts = (mPadded pol (mJust .edge)).reads ts := mThen_stops (pol := pol) (p := mPadded pol (mJust .edge)) (q := mEntity pol) a1
      refine ⟨by omega, fun r hr => ?_⟩
      exact absurd (stops_map.2 (stops_then (p := gPadded pol (lJust .edge)) (q := (mEntity pol).run) (pol := pol) |>.2 (.inl a1))) (not_gives_stops hr)
  have c := mEntity_const pol ts
  rw [e0]
  constructor
  · rcases gives_or_stopped (mEntity pol).run ts with ⟨m, h⟩ | h
    · rw [mThen_gives h]
      have := (gives_entity pol (mEntity_run pol ▸ h)).1
      have := (hq m).1
      omega
    · rw [mThen_stops h]
      omega
  · intro r hr
    obtain ⟨m, hm, hm'⟩ := (g0 _ _).1 hr
    rw [mThen_gives hm]
    obtain ⟨l1, l2⟩ := gives_entity pol (mEntity_run pol ▸ hm)
    obtain ⟨l3, l4⟩ := (hq m).2 r hm'
    exact ⟨by omega, by omega, l2⟩

/-- An entry. -/
theorem mModuleEntry_le (ts : List Token) :
    (mModuleEntry pol).reads ts ≤ 15 * ts.length + 29 ∧
      ∀ r, Gives (mModuleEntry pol).run ts r → (mModuleEntry pol).reads ts + 13 * r.length ≤ 13 * ts.length ∧ r.length ≤ ts.length := by
  obtain ⟨d1, d2, d3⟩ := mEntityDefinition_le pol ts
  obtain ⟨r1, r2⟩ := mRelation_le pol ts
  let a : CountedLP ModuleEntry := mMap .definition (mEntityDefinition pol)
  let b : CountedLP ModuleEntry := mMap .relation (mRelation pol)
  have ea : a.reads ts = (mEntityDefinition pol).reads ts := rfl
  have eb : b.reads ts = (mRelation pol).reads ts := rfl
  show (mChoice pol a b).reads ts ≤ _ ∧ ∀ r, Gives (gChoice pol a.run b.run) ts r → (mChoice pol a b).reads ts + _ ≤ _ ∧ _
  rcases gives_or_stopped a.run ts with ⟨m, h⟩ | h
  · rw [mChoice_gives h]
    refine ⟨by omega, fun r hr => ?_⟩
    cases gives_unique (gives_choice.2 (.inl h)) hr
    have := d1 m (gives_map.1 h)
    omega
  · rw [mChoice_stops h]
    refine ⟨by omega, fun r hr => ?_⟩
    rcases gives_choice.1 hr with hr | ⟨-, hr⟩
    · exact absurd h (not_gives_stops hr)
    · obtain ⟨l1, l2, s, ts', l3⟩ := r2 r (gives_map.1 hr)
      have := d3 s ts' l3
      omega

/-- All the entries. -/
theorem mModuleEntries_le (ts : List Token) :
    (mModuleEntries pol).reads ts ≤ 17 * ts.length + 33 ∧ ∀ r, Gives (mModuleEntries pol).run ts r → r.length ≤ ts.length := by
  have hi : ∀ ts r, Gives (mModuleEntry pol).run ts r → r.length ≤ ts.length := fun ts r h => ((mModuleEntry_le pol ts).2 r h).2
  have hn := @mNextItem_le _ pol (mModuleEntry pol)
  have hok : ∀ ts r, Gives (mNextItem pol (mModuleEntry pol)).run ts r → (mNextItem pol (mModuleEntry pol)).reads ts + 17 * r.length ≤ 17 * ts.length := by
    intro ts r hg
    obtain ⟨t, m, ht, rfl, h1⟩ := gives_nextItem.1 hg
    have h2 := (mModuleEntry_le pol _).2 r h1
    have h3 := skipPad_length_le m
    rcases hn (t :: m) with h | ⟨t', m', ht', e, h⟩
    · simp only [List.length_cons]
      omega
    · cases e
      simp only [List.length_cons]
      omega
  have herr : ∀ ts, Stopped (mNextItem pol (mModuleEntry pol)).run ts → (mNextItem pol (mModuleEntry pol)).reads ts ≤ 17 * ts.length + 33 := by
    intro ts hs
    rcases hn ts with h | ⟨t, m, ht, rfl, h⟩
    · omega
    · have := (mModuleEntry_le pol (skipPad m)).1
      have := skipPad_length_le m
      simp only [List.length_cons]
      omega
  constructor
  · show (mThen pol (mModuleEntry pol) (mRepeated pol (mNextItem pol (mModuleEntry pol)))).reads ts ≤ _
    rcases gives_or_stopped (mModuleEntry pol).run ts with ⟨m, h⟩ | h
    · rw [mThen_gives h]
      have := repeated_weak hok herr (m.length + 1) m
      have := (mModuleEntry_le pol ts).2 m h
      have e : (mRepeated pol (mNextItem pol (mModuleEntry pol))).reads m = tokenRepeatedReads (mNextItem pol (mModuleEntry pol)) (m.length + 1) m := rfl
      omega
    · rw [mThen_stops h]
      have := (mModuleEntry_le pol ts).1
      omega
  · intro r hr
    exact mItems_length hi (gives_map.1 hr)

/-! ### A module -/

/-- A parser with a linear number of reads, that never puts tokens back before where it began. -/
def Linear {α : Type} (p : CountedLP α) (A C : Nat) : Prop :=
  ∀ ts, p.reads ts ≤ A * ts.length + C ∧ ∀ r, Gives p.run ts r → r.length ≤ ts.length

section
variable {α β : Type} {pol}

theorem Linear.then {p : CountedLP α} {q : CountedLP β} {A C B D : Nat} (hp : Linear p A C) (hq : Linear q B D) : Linear (mThen pol p q) (A + B) (C + D) := by
  intro ts
  constructor
  · rw [Nat.add_mul]
    have h1 := (hp ts).1
    rcases gives_or_stopped p.run ts with ⟨m, h⟩ | h
    · rw [mThen_gives h]
      have h2 := (hq m).1
      have h3 := Nat.mul_le_mul_left B ((hp ts).2 m h)
      omega
    · rw [mThen_stops h]
      omega
  · intro r hr
    obtain ⟨m, h1, h2⟩ := gives_then.1 hr
    exact ((hq m).2 r h2).trans ((hp ts).2 m h1)

theorem Linear.map {p : CountedLP α} {f : α → β} {A C : Nat} (hp : Linear p A C) : Linear (mMap f p) A C :=
  fun ts => ⟨(hp ts).1, fun r hr => (hp ts).2 r (gives_map.1 hr)⟩

theorem Linear.orNot {p : CountedLP α} {A C : Nat} (hp : Linear p A C) : Linear (mOrNot p) A C :=
  fun ts => ⟨(hp ts).1, fun r hr => by
    rcases gives_orNot.1 hr with h | ⟨-, rfl⟩
    · exact (hp ts).2 r h
    · exact le_rfl⟩

theorem Linear.pad : Linear (mPad pol) 2 2 := fun ts => ⟨by have := mPad_le pol ts; omega, fun r hr => by
  rw [gives_pad.1 hr]
  exact skipPad_length_le ts⟩

theorem Linear.padded {p : CountedLP α} {A C : Nat} (hp : Linear p A C) : Linear (mPadded pol p) (2 + A + 2) (2 + C + 2) :=
  ((Linear.pad.then hp).map.then Linear.pad).map

theorem Linear.just (t : Token) : Linear (mJust t) 0 1 := fun ts => ⟨by simp [mJust], fun r hr => by
  rw [gives_just.1 hr]
  simp⟩

theorem Linear.ident : Linear mIdent 0 1 := fun ts => ⟨by simp [mIdent], fun r hr => by
  obtain ⟨s, h⟩ := gives_ident.1 hr
  rw [h]
  simp⟩

end

theorem mModule_le (ts : List Token) : (mModule pol).reads ts ≤ 33 * ts.length + 54 := by
  have h : Linear (mModule pol) _ _ :=
    ((((((((Linear.just .erd).padded (pol := pol)).then ((Linear.ident.padded (pol := pol)).orNot)).map.then (Linear.just (.ctrl '{'))).map.then
      ((show Linear (mModuleEntries pol) 17 33 from mModuleEntries_le pol).padded (pol := pol))).then (Linear.just (.ctrl '}'))).map.padded (pol := pol)).map)
  have := (h ts).1
  omega

end Seiren
