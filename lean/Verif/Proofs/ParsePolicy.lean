import Verif.Model.ParsePolicy
/-! # The token parser does not depend on how errors of failed alternatives are kept -/

namespace Seiren

/-- The same place, the same set of expected tokens. -/
def Located.Same (a b : Located) : Prop := a.left = b.left ∧ ∀ t, t ∈ a.expected ↔ t ∈ b.expected

/-- An alternative that is not before the last `n` tokens. -/
def fresh (n : Nat) (a : Option Located) : Option Located := a.filter fun e => decide (e.left ≤ n)

/-- The same alternative as far as errors are concerned that are not before the last `n` tokens. -/
def AltSim (n : Nat) (a b : Option Located) : Prop :=
  match fresh n a, fresh n b with
  | some e, some e' => e.Same e'
  | none, none => True
  | _, _ => False

/-- The same result. -/
def ResSim {α : Type} (ts : List Token) : Except Located (α × Option Located × List Token) → Except Located (α × Option Located × List Token) → Prop
  | .error e, .error e' => e.Same e' ∧ e.left ≤ ts.length
  | .ok (a, alt, rest), .ok (a', alt', rest') => a = a' ∧ rest = rest' ∧ rest.length ≤ ts.length ∧ AltSim rest.length alt alt'
  | _, _ => False

/-- The same parser. -/
def Sim {α : Type} (p g : LP α) : Prop := ∀ ts, ResSim ts (p ts) (g ts)

theorem Located.Same.max {pol : ChoicePolicy} {a b a' b' : Located} (h : a.Same a') (h' : b.Same b') : (a.max b).Same (a'.maxWith pol b') := by
  unfold Located.max Located.maxWith
  rw [← h.1, ← h'.1]
  split
  · exact h
  · split
    · exact h'
    · refine ⟨rfl, fun t => ?_⟩
      simp only [List.mem_append, pol.mem_unite, h.2, h'.2]

theorem Located.Same.refl (a : Located) : a.Same a := ⟨rfl, fun _ => Iff.rfl⟩

theorem fresh_some {n : Nat} {e : Located} (h : e.left ≤ n) : fresh n (some e) = some e := by simp [fresh, h]

theorem fresh_old {n : Nat} {e : Located} (h : n < e.left) : fresh n (some e) = none := by simp [fresh, h]

theorem AltSim.refl (n : Nat) (a : Option Located) : AltSim n a a := by
  unfold AltSim
  cases fresh n a with
  | none => trivial
  | some e => exact .refl e

theorem AltSim.mono {n m : Nat} {a b : Option Located} (h : AltSim n a b) (hm : m ≤ n) : AltSim m a b := by
  unfold AltSim at *
  have key : ∀ x, fresh m x = fresh m (fresh n x) := by
    intro x
    cases x with
    | none => rfl
    | some e =>
      by_cases h1 : e.left ≤ n
      · rw [fresh_some h1]
      · rw [fresh_old (by omega), fresh_old (by omega)]
        rfl
  rw [key a, key b]
  cases ha : fresh n a with
  | none =>
    cases hb : fresh n b with
    | none => trivial
    | some e' => rw [ha, hb] at h; exact h.elim
  | some e =>
    cases hb : fresh n b with
    | none => rw [ha, hb] at h; exact h.elim
    | some e' =>
      rw [ha, hb] at h
      by_cases h1 : e.left ≤ m
      · rw [fresh_some h1, fresh_some (h.1 ▸ h1)]
        exact h
      · have h2 : m < e'.left := by rw [← h.1]; omega
        rw [fresh_old (by omega), fresh_old h2]
        trivial

/-- Alternatives before the last `n` tokens do not matter for an error. -/
theorem maxOpt_fresh {n : Nat} {e : Located} (he : e.left ≤ n) (alt : Option Located) : e.maxOpt alt = e.maxOpt (fresh n alt) := by
  cases alt with
  | none => rfl
  | some a =>
    by_cases h : a.left ≤ n
    · rw [fresh_some h]
    · rw [fresh_old (by omega)]
      simp only [Located.maxOpt, Located.max, if_pos (show e.left < a.left by omega)]

theorem maxOptWith_fresh (pol : ChoicePolicy) {n : Nat} {e : Located} (he : e.left ≤ n) (alt : Option Located) :
    e.maxOptWith pol alt = e.maxOptWith pol (fresh n alt) := by
  cases alt with
  | none => rfl
  | some a =>
    by_cases h : a.left ≤ n
    · rw [fresh_some h]
    · rw [fresh_old (by omega)]
      simp only [Located.maxOptWith, Located.maxWith, if_pos (show e.left < a.left by omega)]

theorem merge_old {n : Nat} {e : Located} (he : n < e.left) (alt : Option Located) : fresh n (mergeAlts (some e) alt) = fresh n alt := by
  cases alt with
  | none => rw [mergeAlts, Located.maxOpt, fresh_old he]; rfl
  | some a =>
    simp only [mergeAlts, Located.maxOpt, Located.max]
    split
    · rw [fresh_old he, fresh_old (by omega)]
    · split
      · rfl
      · rw [fresh_old (by simpa using he), fresh_old (by omega)]

theorem mergeWith_old (pol : ChoicePolicy) {n : Nat} {e : Located} (he : n < e.left) (alt : Option Located) :
    fresh n (mergeAltsWith pol (some e) alt) = fresh n alt := by
  cases alt with
  | none => rw [mergeAltsWith, Located.maxOptWith, fresh_old he]; rfl
  | some a =>
    simp only [mergeAltsWith, Located.maxOptWith, Located.maxWith]
    split
    · rw [fresh_old he, fresh_old (by omega)]
    · split
      · rfl
      · rw [fresh_old (by simpa using he), fresh_old (by omega)]

theorem AltSim.max {pol : ChoicePolicy} {n : Nat} {e e' : Located} (h : e.Same e') (he : e.left ≤ n) {alt alt' : Option Located} (ha : AltSim n alt alt') :
    (e.maxOpt alt).Same (e'.maxOptWith pol alt') := by
  rw [maxOpt_fresh he, maxOptWith_fresh pol (h.1 ▸ he)]
  unfold AltSim at ha
  split at ha
  · rename_i x y hx hy
    rw [hx, hy]
    exact h.max ha
  · rename_i hx hy
    rw [hx, hy]
    exact h
  · exact ha.elim

theorem max_left_le {n : Nat} {e : Located} (he : e.left ≤ n) (alt : Option Located) : (e.maxOpt alt).left ≤ n := by
  cases alt with
  | none => exact he
  | some a =>
    simp only [Located.maxOpt, Located.max]
    split
    · exact he
    · split
      · omega
      · exact he

theorem maxWith_left_le (pol : ChoicePolicy) {n : Nat} {e : Located} (he : e.left ≤ n) (alt : Option Located) : (e.maxOptWith pol alt).left ≤ n := by
  cases alt with
  | none => exact he
  | some a =>
    simp only [Located.maxOptWith, Located.maxWith]
    split
    · exact he
    · split
      · omega
      · exact he

theorem AltSim.merge {pol : ChoicePolicy} {n : Nat} {a a' b b' : Option Located} (ha : AltSim n a a') (hb : AltSim n b b') :
    AltSim n (mergeAlts a b) (mergeAltsWith pol a' b') := by
  have old : ∀ {a : Option Located}, fresh n a = none → ∀ b, fresh n (mergeAlts a b) = fresh n b := by
    intro a h b
    cases a with
    | none => rfl
    | some e =>
      refine merge_old ?_ b
      by_contra hn
      rw [fresh_some (by omega)] at h
      cases h
  have oldWith : ∀ {a : Option Located}, fresh n a = none → ∀ b, fresh n (mergeAltsWith pol a b) = fresh n b := by
    intro a h b
    cases a with
    | none => rfl
    | some e =>
      refine mergeWith_old pol ?_ b
      by_contra hn
      rw [fresh_some (by omega)] at h
      cases h
  have new : ∀ {a : Option Located} {e}, fresh n a = some e → a = some e ∧ e.left ≤ n := by
    intro a e h
    cases a with
    | none => cases h
    | some x =>
      by_cases hx : x.left ≤ n
      · rw [fresh_some hx] at h
        cases h
        exact ⟨rfl, hx⟩
      · rw [fresh_old (by omega)] at h
        cases h
  cases hfa : fresh n a with
  | none =>
    have hfa' : fresh n a' = none := by
      unfold AltSim at ha
      rw [hfa] at ha
      cases h : fresh n a' with
      | none => rfl
      | some e => rw [h] at ha; exact ha.elim
    unfold AltSim
    rw [old hfa, oldWith hfa']
    exact hb
  | some e =>
    have ⟨e', hfa', hs⟩ : ∃ e', fresh n a' = some e' ∧ e.Same e' := by
      unfold AltSim at ha
      rw [hfa] at ha
      cases h : fresh n a' with
      | none => rw [h] at ha; exact ha.elim
      | some e' => rw [h] at ha; exact ⟨e', rfl, ha⟩
    obtain ⟨rfl, he⟩ := new hfa
    obtain ⟨rfl, he'⟩ := new hfa'
    unfold AltSim
    rw [mergeAlts, mergeAltsWith, fresh_some (max_left_le he b), fresh_some (maxWith_left_le pol he' b')]
    exact AltSim.max hs he hb

section
variable {α β : Type}

theorem Sim.map {p g : LP α} (h : Sim p g) (f : α → β) : Sim (lMap f p) (lMap f g) := by
  intro ts
  have := h ts
  unfold lMap
  cases hp : p ts with
  | error e =>
    cases hg : g ts with
    | error e' => rw [hp, hg] at this; exact this
    | ok r => rw [hp, hg] at this; exact this.elim
  | ok r =>
    obtain ⟨a, alt, rest⟩ := r
    cases hg : g ts with
    | error e' => rw [hp, hg] at this; exact this.elim
    | ok r' =>
      obtain ⟨a', alt', rest'⟩ := r'
      rw [hp, hg] at this
      obtain ⟨rfl, h2, h3, h4⟩ := this
      exact ⟨rfl, h2, h3, h4⟩

theorem Sim.then {pol : ChoicePolicy} {p g : LP α} {q k : LP β} (h : Sim p g) (h' : Sim q k) : Sim (lThen p q) (gThen pol g k) := by
  intro ts
  have h1 := h ts
  unfold lThen gThen
  cases hp : p ts with
  | error e =>
    cases hg : g ts with
    | error e' => rw [hp, hg] at h1; exact h1
    | ok r => rw [hp, hg] at h1; exact h1.elim
  | ok r =>
    obtain ⟨a, alt, rest⟩ := r
    cases hg : g ts with
    | error e' => rw [hp, hg] at h1; exact h1.elim
    | ok r' =>
      obtain ⟨a', alt', rest'⟩ := r'
      rw [hp, hg] at h1
      obtain ⟨rfl, rfl, h3, h4⟩ := h1
      have h2 := h' rest
      simp only
      cases hq : q rest with
      | error e =>
        cases hk : k rest with
        | ok r => rw [hq, hk] at h2; exact h2.elim
        | error e' =>
          rw [hq, hk] at h2
          exact ⟨AltSim.max h2.1 h2.2 h4, (max_left_le h2.2 alt).trans h3⟩
      | ok r =>
        obtain ⟨b, alt2, rest2⟩ := r
        cases hk : k rest with
        | error e' => rw [hq, hk] at h2; exact h2.elim
        | ok r' =>
          obtain ⟨b', alt2', rest2'⟩ := r'
          rw [hq, hk] at h2
          obtain ⟨rfl, rfl, h5, h6⟩ := h2
          exact ⟨rfl, rfl, h5.trans h3, AltSim.merge (h4.mono h5) h6⟩

theorem Sim.ignoreThen {pol : ChoicePolicy} {p g : LP α} {q k : LP β} (h : Sim p g) (h' : Sim q k) : Sim (lIgnoreThen p q) (gIgnoreThen pol g k) :=
  (h.then h').map _

theorem Sim.thenIgnore {pol : ChoicePolicy} {p g : LP α} {q k : LP β} (h : Sim p g) (h' : Sim q k) : Sim (lThenIgnore p q) (gThenIgnore pol g k) :=
  (h.then h').map _

/-- A choice: when the second alternative succeeds, it has gone beyond the error of the first. -/
theorem Sim.choice {pol : ChoicePolicy} {p g q k : LP α} (h : Sim p g) (h' : Sim q k)
    (hb : ∀ ts e a alt rest, p ts = .error e → q ts = .ok (a, alt, rest) → rest.length < e.left) : Sim (lChoice p q) (gChoice pol g k) := by
  intro ts
  have h1 := h ts
  unfold lChoice gChoice
  cases hp : p ts with
  | ok r =>
    cases hg : g ts with
    | error e' => rw [hp, hg] at h1; exact h1.elim
    | ok r' => rw [hp, hg] at h1; exact h1
  | error e =>
    cases hg : g ts with
    | ok r => rw [hp, hg] at h1; exact h1.elim
    | error e' =>
      rw [hp, hg] at h1
      have h2 := h' ts
      simp only
      cases hq : q ts with
      | error e2 =>
        cases hk : k ts with
        | ok r => rw [hq, hk] at h2; exact h2.elim
        | error e2' =>
          rw [hq, hk] at h2
          exact ⟨h2.1.max h1.1, max_left_le h2.2 (some e)⟩
      | ok r =>
        obtain ⟨b, alt2, rest2⟩ := r
        cases hk : k ts with
        | error e' => rw [hq, hk] at h2; exact h2.elim
        | ok r' =>
          obtain ⟨b', alt2', rest2'⟩ := r'
          rw [hq, hk] at h2
          obtain ⟨rfl, rfl, h5, h6⟩ := h2
          refine ⟨rfl, rfl, h5, ?_⟩
          cases pol.mergeAlt with
          | false => exact h6
          | true =>
            have hlt := hb ts e b alt2 rest2 hp hq
            rw [if_pos rfl]
            unfold AltSim
            rw [mergeWith_old pol (h1.1.1 ▸ hlt)]
            exact h6

theorem Sim.orNot {p g : LP α} (h : Sim p g) : Sim (lOrNot p) (lOrNot g) := by
  intro ts
  have h1 := h ts
  unfold lOrNot
  cases hp : p ts with
  | error e =>
    cases hg : g ts with
    | ok r => rw [hp, hg] at h1; exact h1.elim
    | error e' =>
      rw [hp, hg] at h1
      refine ⟨rfl, rfl, le_rfl, ?_⟩
      unfold AltSim
      rw [fresh_some h1.2, fresh_some (h1.1.1 ▸ h1.2)]
      exact h1.1
  | ok r =>
    obtain ⟨a, alt, rest⟩ := r
    cases hg : g ts with
    | error e' => rw [hp, hg] at h1; exact h1.elim
    | ok r' =>
      obtain ⟨a', alt', rest'⟩ := r'
      rw [hp, hg] at h1
      obtain ⟨rfl, h2, h3, h4⟩ := h1
      exact ⟨rfl, h2, h3, h4⟩

theorem Sim.repeated {pol : ChoicePolicy} {p g : LP α} (h : Sim p g) : Sim (lRepeated p) (gRepeated pol g) := by
  have loop : ∀ fuel alt alt' ts, AltSim ts.length alt alt' → ResSim ts (.ok (lRepeatedLoop p fuel alt ts)) (.ok (gRepeatedLoop pol g fuel alt' ts)) := by
    intro fuel
    induction fuel with
    | zero => intro alt alt' ts ha; exact ⟨rfl, rfl, le_rfl, ha⟩
    | succ fuel ih =>
      intro alt alt' ts ha
      have h1 := h ts
      unfold lRepeatedLoop gRepeatedLoop
      cases hp : p ts with
      | error e =>
        cases hg : g ts with
        | ok r => rw [hp, hg] at h1; exact h1.elim
        | error e' =>
          rw [hp, hg] at h1
          refine ⟨rfl, rfl, le_rfl, AltSim.merge ha ?_⟩
          unfold AltSim
          rw [fresh_some h1.2, fresh_some (h1.1.1 ▸ h1.2)]
          exact h1.1
      | ok r =>
        obtain ⟨a, alt2, rest⟩ := r
        cases hg : g ts with
        | error e' => rw [hp, hg] at h1; exact h1.elim
        | ok r' =>
          obtain ⟨a', alt2', rest'⟩ := r'
          rw [hp, hg] at h1
          obtain ⟨rfl, rfl, h3, h4⟩ := h1
          have h2 := ih (mergeAlts alt alt2) (mergeAltsWith pol alt' alt2') rest (AltSim.merge (ha.mono h3) h4)
          simp only
          obtain ⟨e1, e2, e3, e4⟩ := h2
          exact ⟨by rw [e1], e2, e3.trans h3, e4⟩
  intro ts
  exact loop _ none none ts (AltSim.refl _ _)

end

theorem sim_just (t : Token) : Sim (lJust t) (lJust t) := by
  intro ts
  cases ts with
  | nil => exact ⟨.refl _, le_rfl⟩
  | cons x ts =>
    by_cases h : t = x
    · simp only [lJust, if_pos h]
      exact ⟨rfl, rfl, by simp, .refl _ _⟩
    · simp only [lJust, if_neg h]
      exact ⟨.refl _, le_rfl⟩

theorem sim_ident : Sim lIdent lIdent := by
  intro ts
  unfold lIdent
  split
  · exact ⟨rfl, rfl, by simp, .refl _ _⟩
  · exact ⟨.refl _, le_rfl⟩

/-- When `just` fails, another parser that consumes a token goes beyond the error. -/
theorem just_before {α β : Type} {f : Unit → β} {t : Token} {q : LP α} (hq : ∀ ts a alt rest, q ts = .ok (a, alt, rest) → rest.length < ts.length) :
    ∀ ts e a alt rest, lMap f (lJust t) ts = .error e → q ts = .ok (a, alt, rest) → rest.length < e.left := by
  intro ts e a alt rest h1 h2
  have := hq _ _ _ _ h2
  cases ts with
  | nil => simp at this
  | cons x ts =>
    by_cases h : t = x
    · simp [lMap, lJust, if_pos h] at h1
    · simp only [lMap, lJust, if_neg h, Except.error.injEq] at h1
      rw [← h1]
      exact this

theorem just_consumes {β : Type} (f : Unit → β) (t : Token) : ∀ ts a alt rest, lMap f (lJust t) ts = .ok (a, alt, rest) → rest.length < ts.length := by
  intro ts a alt rest h
  cases ts with
  | nil => simp [lMap, lJust] at h
  | cons x ts =>
    by_cases hx : t = x
    · simp only [lMap, lJust, if_pos hx, Except.ok.injEq, Prod.mk.injEq] at h
      rw [← h.2.2]
      simp
    · simp [lMap, lJust, if_neg hx] at h

theorem choice_consumes {α : Type} {p q : LP α} (hp : ∀ ts a alt rest, p ts = .ok (a, alt, rest) → rest.length < ts.length)
    (hq : ∀ ts a alt rest, q ts = .ok (a, alt, rest) → rest.length < ts.length) :
    ∀ ts a alt rest, lChoice p q ts = .ok (a, alt, rest) → rest.length < ts.length := by
  intro ts a alt rest h
  unfold lChoice at h
  cases h1 : p ts with
  | ok r => rw [h1] at h; simp only [Except.ok.injEq] at h; subst h; exact hp _ _ _ _ h1
  | error e =>
    rw [h1] at h
    simp only at h
    cases h2 : q ts with
    | ok r => rw [h2] at h; simp only [Except.ok.injEq] at h; subst h; exact hq _ _ _ _ h2
    | error e' => rw [h2] at h; cases h

section
variable (pol : ChoicePolicy)

theorem lMap_id {α : Type} (p : LP α) : lMap (fun x => x) p = p := by
  funext ts
  unfold lMap
  cases p ts <;> rfl

theorem sim_sep : Sim lSep (gSep pol) := by
  refine Sim.choice (sim_just _) (sim_just _) ?_
  have h := just_before (f := fun x => x) (t := .newline) (just_consumes (fun x => x) (.ctrl ';'))
  rw [lMap_id, lMap_id] at h
  exact h

theorem sim_pad : Sim lPad (gPad pol) := (sim_sep pol).repeated

theorem sim_padded {α : Type} {p g : LP α} (h : Sim p g) : Sim (lPadded p) (gPadded pol g) := ((sim_pad pol).ignoreThen h).thenIgnore (sim_pad pol)

theorem sim_fieldType : Sim lFieldType (gFieldType pol) := by
  refine Sim.choice ((sim_just _).map _) (Sim.choice ((sim_just _).map _) (Sim.choice ((sim_just _).map _) ((sim_just _).map _) ?_) ?_) ?_
  · exact just_before (just_consumes _ _)
  · exact just_before (choice_consumes (just_consumes _ _) (just_consumes _ _))
  · exact just_before (choice_consumes (just_consumes _ _) (choice_consumes (just_consumes _ _) (just_consumes _ _)))

theorem sim_fieldKey : Sim lFieldKey (gFieldKey pol) :=
  Sim.choice ((sim_just _).map _) ((sim_just _).map _) (just_before (just_consumes _ _))

theorem sim_entity : Sim lEntity (gEntity pol) := (sim_ident.then ((sim_just _).ignoreThen sim_ident.orNot)).map _

theorem sim_entityField : Sim lEntityField (gEntityField pol) := ((sim_ident.then (sim_fieldType pol)).then (sim_fieldKey pol).orNot).map _

theorem sim_items {α : Type} {p g : LP α} (h : Sim p g) : Sim (lItems p) (gItems pol g) :=
  ((h.then (((sim_sep pol).ignoreThen (sim_pad pol)).ignoreThen h).repeated).map _).orNot

theorem sim_entityFields : Sim lEntityFields (gEntityFields pol) := (sim_padded pol (sim_items pol (sim_entityField pol))).map _

theorem sim_definition : Sim lEntityDefinition (gEntityDefinition pol) :=
  ((((sim_ident.thenIgnore (sim_pad pol)).thenIgnore (sim_just _)).then (sim_entityFields pol)).thenIgnore (sim_just _)).map _

theorem sim_relation : Sim lRelation (gRelation pol) :=
  ((sim_entity pol).then ((sim_padded pol (sim_just _)).ignoreThen (sim_entity pol))).map _

theorem sim_entry : Sim lModuleEntry (gModuleEntry pol) := by
  refine Sim.choice ((sim_definition pol).map _) ((sim_relation pol).map _) ?_
  intro ts e a alt rest h1 h2
  unfold lMap at h1 h2
  cases hr : lRelation ts with
  | error e => rw [hr] at h2; cases h2
  | ok r =>
    obtain ⟨rel, alt1, rest1⟩ := r
    rw [hr] at h2
    simp only [Except.ok.injEq, Prod.mk.injEq] at h2
    obtain ⟨-, -, rfl⟩ := h2
    -- a relation begins with an identifier and a dot
    unfold lRelation lMap lThen at hr
    cases he : lEntity ts with
    | error e => rw [he] at hr; cases hr
    | ok r =>
      obtain ⟨x, alt2, rest2⟩ := r
      rw [he] at hr
      simp only at hr
      have hrest : rest1.length ≤ rest2.length := by
        have hs := (sim_padded pol (sim_just .edge)).ignoreThen (pol := pol) (sim_entity pol) rest2
        cases hk : lIgnoreThen (lPadded (lJust .edge)) lEntity rest2 with
        | error e => rw [hk] at hr; cases hr
        | ok r =>
          obtain ⟨y, alt3, rest3⟩ := r
          rw [hk] at hr hs
          simp only [Except.ok.injEq, Prod.mk.injEq] at hr
          obtain ⟨-, -, rfl⟩ := hr
          cases hg : gIgnoreThen pol (gPadded pol (lJust .edge)) (gEntity pol) rest2 with
          | error e => rw [hg] at hs; exact hs.elim
          | ok r => rw [hg] at hs; exact hs.2.2.1
      have hts : ∃ s ts', ts = .ident s :: .ctrl '.' :: ts' ∧ rest2.length ≤ ts'.length := by
        unfold lEntity lMap lThen lIgnoreThen lMap lThen at he
        cases ts with
        | nil => simp [lIdent] at he
        | cons t ts =>
          cases t with
          | ident s =>
            cases ts with
            | nil => simp [lIdent, lJust] at he
            | cons t ts =>
              by_cases ht : Token.ctrl '.' = t
              · subst ht
                refine ⟨s, ts, rfl, ?_⟩
                have ho := sim_ident.orNot ts
                simp only [lIdent, lJust, if_true] at he
                cases hk : lOrNot lIdent ts with
                | error e => rw [hk] at he; cases he
                | ok r =>
                  rw [hk] at ho he
                  simp only [Except.ok.injEq, Prod.mk.injEq] at he
                  obtain ⟨-, -, rfl⟩ := he
                  exact ho.2.2.1
              · simp [lIdent, lJust, ht] at he
          | _ => simp [lIdent] at he
      obtain ⟨s, ts', rfl, hle⟩ := hts
      have hd : ∃ x, lEntityDefinition (.ident s :: .ctrl '.' :: ts') = .error ⟨ts'.length + 1, x⟩ := by
        simp [lEntityDefinition, lMap, lThenIgnore, lThen, lIdent, lPad, lRepeated, lRepeatedLoop, lSep, lChoice, lJust, Located.max, Located.maxOpt, mergeAlts]
      obtain ⟨x, hd⟩ := hd
      rw [hd] at h1
      simp only [Except.error.injEq] at h1
      rw [← h1]
      simp only
      omega

theorem sim_entries : Sim lModuleEntries (gModuleEntries pol) := (sim_items pol (sim_entry pol)).map _

theorem sim_module : Sim lModule (gModule pol) :=
  (sim_padded pol ((((sim_padded pol (sim_just _)).ignoreThen (sim_padded pol sim_ident).orNot).thenIgnore (sim_just _)).then
    (sim_padded pol (sim_entries pol)) |>.thenIgnore (sim_just _))).map _

end

end Seiren
