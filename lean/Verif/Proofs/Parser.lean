import Verif.Spec.Grammar
/-! # The parser and the grammar -/

namespace Seiren
open Spec

/-! ## Padding -/

theorem isSep_iff (t : Token) : isSep t = true ↔ IsSeparator t := by
  simp only [isSep, IsSeparator, Bool.or_eq_true, beq_iff_eq]

theorem takeWhile_all {α : Type} (f : α → Bool) (l : List α) : ∀ x ∈ l.takeWhile f, f x = true := by
  induction l with
  | nil => simp
  | cons a l ih =>
    intro x hx
    by_cases h : f a = true
    · rw [List.takeWhile_cons_of_pos h, List.mem_cons] at hx
      rcases hx with rfl | hx
      · exact h
      · exact ih x hx
    · rw [List.takeWhile_cons_of_neg h] at hx; cases hx

theorem dropWhile_head {α : Type} (f : α → Bool) (l : List α) : l.dropWhile f = [] ∨ ∃ a r, l.dropWhile f = a :: r ∧ f a = false := by
  induction l with
  | nil => exact Or.inl rfl
  | cons a l ih =>
    by_cases h : f a = true
    · rw [List.dropWhile_cons_of_pos h]; exact ih
    · rw [List.dropWhile_cons_of_neg h]; exact Or.inr ⟨a, l, rfl, by simpa using h⟩

theorem skipPad_split (ts : List Token) : ∃ p, (∀ t ∈ p, IsSeparator t) ∧ ts = p ++ skipPad ts := by
  refine ⟨ts.takeWhile isSep, ?_, (List.takeWhile_append_dropWhile ..).symm⟩
  intro t ht
  exact (isSep_iff t).mp (takeWhile_all _ _ t ht)

theorem skipPad_pads {p : List Token} (hp : ∀ t ∈ p, IsSeparator t) (ts : List Token) : skipPad (p ++ ts) = skipPad ts := by
  induction p with
  | nil => rfl
  | cons t p ih =>
    have h1 := (isSep_iff t).mpr (hp t (by simp))
    rw [List.cons_append, skipPad, List.dropWhile_cons_of_pos h1]
    exact ih fun t ht => hp t (by simp [ht])

theorem skipPad_stop {t : Token} (h : ¬ IsSeparator t) (ts : List Token) : skipPad (t :: ts) = t :: ts := by
  rw [skipPad, List.dropWhile_cons_of_neg]
  rw [isSep_iff]; exact h

theorem skipPad_to {p : List Token} (hp : ∀ t ∈ p, IsSeparator t) {t : Token} (h : ¬ IsSeparator t) (ts : List Token) :
    skipPad (p ++ t :: ts) = t :: ts := by rw [skipPad_pads hp, skipPad_stop h]

theorem pJust_some {t : Token} {ts r : List Token} (h : pJust t ts = some ((), r)) : ts = t :: r := by
  cases ts with
  | nil => cases h
  | cons t' ts =>
    simp only [pJust] at h
    split at h
    · rename_i he
      simp only [Option.some.injEq, Prod.mk.injEq, true_and] at h
      rw [he, h]
    · cases h

theorem pJust_self (t : Token) (r : List Token) : pJust t (t :: r) = some ((), r) := by simp [pJust]

theorem pIdent_some {ts r : List Token} {s : Str} (h : pIdent ts = some (s, r)) : ts = .ident s :: r := by
  unfold pIdent at h
  split at h
  · simp only [Option.some.injEq, Prod.mk.injEq] at h
    rw [h.1, h.2]
  · cases h

theorem pSep_some {ts r : List Token} (h : pSep ts = some ((), r)) : ∃ t, IsSeparator t ∧ ts = t :: r := by
  cases ts with
  | nil => cases h
  | cons t ts =>
    simp only [pSep] at h
    split at h
    · rename_i he
      simp only [Option.some.injEq, Prod.mk.injEq, true_and] at h
      exact ⟨t, (isSep_iff t).mp he, by rw [h]⟩
    · cases h

/-! ## What the parser accepts is derived by the grammar -/

theorem pEntity_sound {ts r : List Token} {p : EntityPath} (h : pEntity ts = some (p, r)) : ∃ w, ts = w ++ r ∧ DottedEnd p w := by
  simp only [pEntity, Option.bind_eq_bind, Option.bind_eq_some_iff, Prod.exists] at h
  obtain ⟨t, r1, h1, ⟨⟩, r2, h2, h3⟩ := h
  have e1 := pIdent_some h1
  have e2 := pJust_some h2
  subst e1 e2
  unfold pOrNot at h3
  cases h4 : pIdent r2 with
  | none =>
    rw [h4] at h3
    simp only [Option.some.injEq, Prod.mk.injEq] at h3
    obtain ⟨rfl, rfl⟩ := h3
    exact ⟨[.ident t, .ctrl '.'], rfl, .entity t⟩
  | some x =>
    obtain ⟨f, r3⟩ := x
    rw [h4] at h3
    simp only [Option.some.injEq, Prod.mk.injEq] at h3
    obtain ⟨rfl, rfl⟩ := h3
    have e3 := pIdent_some h4
    subst e3
    exact ⟨[.ident t, .ctrl '.', .ident f], rfl, .field t f⟩

theorem pFieldType_some {ts r : List Token} {ty : EntityFieldType} (h : pFieldType ts = some (ty, r)) : ts = typeToken ty :: r := by
  unfold pFieldType at h
  split at h <;> simp only [Option.some.injEq, Prod.mk.injEq, reduceCtorEq] at h <;> obtain ⟨rfl, rfl⟩ := h <;> rfl

theorem pFieldKey_some {ts r : List Token} {k : EntityFieldKey} (h : pFieldKey ts = some (k, r)) : ts = keyTokens (some k) ++ r := by
  unfold pFieldKey at h
  split at h <;> simp only [Option.some.injEq, Prod.mk.injEq, reduceCtorEq] at h <;> obtain ⟨rfl, rfl⟩ := h <;> rfl

theorem pEntityField_sound {ts r : List Token} {f : EntityField} (h : pEntityField ts = some (f, r)) :
    ∃ w, ts = w ++ r ∧ FieldG f w := by
  simp only [pEntityField, Option.bind_eq_bind, Option.bind_eq_some_iff, Prod.exists] at h
  obtain ⟨n, r1, h1, ty, r2, h2, h3⟩ := h
  have e1 := pIdent_some h1
  have e2 := pFieldType_some h2
  subst e1 e2
  unfold pOrNot at h3
  cases h4 : pFieldKey r2 with
  | none =>
    rw [h4] at h3
    simp only [Option.some.injEq, Prod.mk.injEq] at h3
    obtain ⟨rfl, rfl⟩ := h3
    exact ⟨_, rfl, rfl⟩
  | some x =>
    obtain ⟨k, r3⟩ := x
    rw [h4] at h3
    simp only [Option.some.injEq, Prod.mk.injEq] at h3
    obtain ⟨rfl, rfl⟩ := h3
    have e3 := pFieldKey_some h4
    subst e3
    exact ⟨.ident n :: typeToken ty :: keyTokens (some k), by simp, rfl⟩

section items
variable {α : Type} {item : P α} {G : α → List Token → Prop}

theorem pSepItems_sound (hs : ∀ ts a r, item ts = some (a, r) → ∃ w, ts = w ++ r ∧ G a w) (fuel : Nat) (ts : List Token) (as : List α)
    (r : List Token) (h : pSepItems item fuel ts = (as, r)) : ∃ w, ts = w ++ r ∧ More implemented G as w := by
  induction fuel generalizing ts as with
  | zero =>
    simp only [pSepItems, Prod.mk.injEq] at h
    obtain ⟨rfl, rfl⟩ := h
    exact ⟨[], rfl, .done⟩
  | succ fuel ih =>
    simp only [pSepItems] at h
    cases h1 : pSep ts with
    | none =>
      rw [h1] at h
      simp only [Prod.mk.injEq] at h
      obtain ⟨rfl, rfl⟩ := h
      exact ⟨[], rfl, .done⟩
    | some x =>
      obtain ⟨⟨⟩, r1⟩ := x
      rw [h1] at h
      simp only at h
      cases h2 : item (skipPad r1) with
      | none =>
        rw [h2] at h
        simp only [Prod.mk.injEq] at h
        obtain ⟨rfl, rfl⟩ := h
        exact ⟨[], rfl, .done⟩
      | some y =>
        obtain ⟨a, r2⟩ := y
        rw [h2] at h
        simp only at h
        cases h3 : pSepItems item fuel r2 with
        | mk as' r3 =>
          rw [h3] at h
          simp only [Prod.mk.injEq] at h
          obtain ⟨rfl, rfl⟩ := h
          obtain ⟨s, hsep, rfl⟩ := pSep_some h1
          obtain ⟨p, hp, e1⟩ := skipPad_split r1
          obtain ⟨w, e2, hw⟩ := hs _ _ _ h2
          obtain ⟨v, e3, hv⟩ := ih _ _ h3
          refine ⟨s :: (p ++ (w ++ v)), ?_, .more s p a w as' v hsep hp hw hv⟩
          rw [e1, e2, e3]
          simp

theorem pItems_sound (hs : ∀ ts a r, item ts = some (a, r) → ∃ w, ts = w ++ r ∧ G a w) (ts : List Token) (as : List α)
    (r : List Token) (h : pItems item ts = (as, r)) : ∃ w, ts = w ++ r ∧ Items implemented G as w := by
  unfold pItems at h
  cases h1 : item ts with
  | none =>
    rw [h1] at h
    simp only [Prod.mk.injEq] at h
    obtain ⟨rfl, rfl⟩ := h
    exact ⟨[], rfl, .empty⟩
  | some x =>
    obtain ⟨a, r1⟩ := x
    rw [h1] at h
    simp only at h
    cases h3 : pSepItems item r1.length r1 with
    | mk as' r3 =>
      rw [h3] at h
      simp only [Prod.mk.injEq] at h
      obtain ⟨rfl, rfl⟩ := h
      obtain ⟨w, e2, hw⟩ := hs _ _ _ h1
      obtain ⟨v, e3, hv⟩ := pSepItems_sound hs _ _ _ _ h3
      exact ⟨w ++ v, by rw [e2, e3]; simp, .items a w as' v hw hv⟩

/-! ## What is derived is accepted -/

/-- The next token is a separator or a closing brace. -/
def Ended (r : List Token) : Prop := ∃ t r', r = t :: r' ∧ (IsSeparator t ∨ t = .ctrl '}')

theorem not_sep_close : ¬ IsSeparator (.ctrl '}') := by simp [IsSeparator]
theorem not_sep_open : ¬ IsSeparator (.ctrl '{') := by simp [IsSeparator]
theorem not_sep_dot : ¬ IsSeparator (.ctrl '.') := by simp [IsSeparator]
theorem not_sep_ident (s : Str) : ¬ IsSeparator (.ident s) := by simp [IsSeparator]
theorem not_sep_edge : ¬ IsSeparator .edge := by simp [IsSeparator]
theorem not_sep_erd : ¬ IsSeparator .erd := by simp [IsSeparator]

theorem ended_close {u r : List Token} (hu : ∀ t ∈ u, IsSeparator t) : Ended (u ++ .ctrl '}' :: r) := by
  cases u with
  | nil => exact ⟨_, _, rfl, Or.inr rfl⟩
  | cons t u => exact ⟨t, _, rfl, Or.inl (hu t (by simp))⟩

theorem ended_more {as : List α} {v r : List Token} (hv : More implemented G as v) (hr : Ended r) : Ended (v ++ r) := by
  cases hv with
  | done => exact hr
  | more s p a w as v hs hp ha hv => exact ⟨s, _, rfl, Or.inl hs⟩

theorem pSepItems_complete (hc : ∀ a w r, G a w → Ended r → item (w ++ r) = some (a, r)) (hf : ∀ r, item (.ctrl '}' :: r) = none)
    (hG : ∀ a w, G a w → ∃ t w', w = t :: w' ∧ ¬ IsSeparator t) {as : List α} {v : List Token} (hv : More implemented G as v)
    {u : List Token} (hu : ∀ t ∈ u, IsSeparator t) (r : List Token) (fuel : Nat) (hfuel : as.length ≤ fuel) :
    pSepItems item fuel (v ++ (u ++ .ctrl '}' :: r)) = (as, u ++ .ctrl '}' :: r) := by
  induction hv generalizing fuel with
  | done =>
    cases fuel with
    | zero => rfl
    | succ fuel =>
      simp only [List.nil_append, pSepItems]
      cases u with
      | nil => rfl
      | cons s u =>
        have hs := (isSep_iff s).mpr (hu s (by simp))
        simp only [List.cons_append, pSep, hs, if_true]
        rw [skipPad_to (fun t ht => hu t (by simp [ht])) not_sep_close, hf]
  | more s p a w as v hs hp ha hv ih =>
    cases fuel with
    | zero => simp at hfuel
    | succ fuel =>
      have hs' := (isSep_iff s).mpr hs
      obtain ⟨t, w', rfl, ht⟩ := hG a w ha
      have e : p ++ ((t :: w') ++ v) ++ (u ++ .ctrl '}' :: r) = p ++ t :: (w' ++ (v ++ (u ++ .ctrl '}' :: r))) := by simp
      have hitem := hc a _ _ ha (ended_more hv (ended_close (r := r) hu))
      rw [List.cons_append] at hitem
      simp only [List.cons_append, pSepItems, pSep, hs', if_true]
      rw [show p ++ t :: (w' ++ v) ++ (u ++ .ctrl '}' :: r) = p ++ t :: (w' ++ (v ++ (u ++ .ctrl '}' :: r))) by simp,
        skipPad_to hp ht, hitem]
      simp only [ih fuel (by simpa using hfuel)]

theorem More.length_le {as : List α} {v : List Token} (hv : More implemented G as v) : as.length ≤ v.length := by
  induction hv with
  | done => simp
  | more s p a w as v hs hp ha hv ih => simp; omega

theorem pItems_complete (hc : ∀ a w r, G a w → Ended r → item (w ++ r) = some (a, r)) (hf : ∀ r, item (.ctrl '}' :: r) = none)
    (hG : ∀ a w, G a w → ∃ t w', w = t :: w' ∧ ¬ IsSeparator t) {as : List α} {v : List Token} (hv : Items implemented G as v)
    {q u : List Token} (hq : ∀ t ∈ q, IsSeparator t) (hu : ∀ t ∈ u, IsSeparator t) (r : List Token) :
    ∃ u', (∀ t ∈ u', IsSeparator t) ∧ pItems item (skipPad (q ++ (v ++ (u ++ .ctrl '}' :: r)))) = (as, u' ++ .ctrl '}' :: r) := by
  cases hv with
  | empty =>
    refine ⟨[], by simp, ?_⟩
    rw [skipPad_pads hq, List.nil_append, skipPad_to hu not_sep_close, pItems, hf]
    rfl
  | items a w as v ha hv =>
    refine ⟨u, hu, ?_⟩
    obtain ⟨t, w', rfl, ht⟩ := hG a w ha
    have hitem := hc a _ _ ha (ended_more hv (ended_close (r := r) hu))
    rw [List.cons_append] at hitem
    rw [show q ++ ((t :: w') ++ v ++ (u ++ .ctrl '}' :: r)) = q ++ t :: (w' ++ (v ++ (u ++ .ctrl '}' :: r))) by simp,
      skipPad_to hq ht, pItems, hitem]
    simp only
    rw [pSepItems_complete hc hf hG hv hu r _ (by have := More.length_le hv; simp only [List.length_append]; omega)]

end items

theorem pIdent_ended {r : List Token} (h : Ended r) : pIdent r = none := by
  obtain ⟨t, r', rfl, ht | rfl⟩ := h
  · rcases ht with rfl | rfl <;> rfl
  · rfl

theorem pFieldKey_ended {r : List Token} (h : Ended r) : pFieldKey r = none := by
  obtain ⟨t, r', rfl, ht | rfl⟩ := h
  · rcases ht with rfl | rfl <;> rfl
  · rfl

theorem pEntityField_complete (f : EntityField) (w r : List Token) (h : FieldG f w) (hr : Ended r) :
    pEntityField (w ++ r) = some (f, r) := by
  obtain ⟨n, ty, k⟩ := f
  unfold FieldG at h
  subst h
  have hty : ∀ ts, pFieldType (typeToken ty :: ts) = some (ty, ts) := by intro ts; cases ty <;> rfl
  simp only [pEntityField, List.cons_append, pIdent, Option.bind_eq_bind, Option.bind_some, hty]
  cases k with
  | none => simp [keyTokens, pOrNot, pFieldKey_ended hr]
  | some k => cases k <;> simp [keyTokens, pOrNot, pFieldKey]

theorem pEntity_complete (p : EntityPath) (w r : List Token) (h : DottedEnd p w) (hr : pIdent r = none) :
    pEntity (w ++ r) = some (p, r) := by
  cases h with
  | field t f => simp [pEntity, pIdent, pJust, pOrNot]
  | entity t =>
    have h1 : pIdent (.ident t :: .ctrl '.' :: r) = some (t, .ctrl '.' :: r) := rfl
    simp only [pEntity, List.cons_append, List.nil_append, h1, Option.bind_eq_bind, Option.bind_some, pJust_self, pOrNot, hr]

theorem pEntityFields_complete {fs : List EntityField} {ws q u : List Token} (h : Items implemented FieldG fs ws) (hq : ∀ t ∈ q, IsSeparator t)
    (hu : ∀ t ∈ u, IsSeparator t) (r : List Token) : pEntityFields (q ++ (ws ++ (u ++ .ctrl '}' :: r))) = (fs, .ctrl '}' :: r) := by
  obtain ⟨u', hu', he⟩ := pItems_complete (item := pEntityField) pEntityField_complete (fun r => rfl)
    (by rintro f w rfl; exact ⟨_, _, rfl, not_sep_ident _⟩) h hq hu r
  unfold pEntityFields
  rw [he]
  simp only
  rw [skipPad_to hu' not_sep_close]

theorem pEntityFields_sound {ts r : List Token} {fs : List EntityField} (h : pEntityFields ts = (fs, r)) :
    ∃ q ws u, (∀ t ∈ q ++ u, IsSeparator t) ∧ Items implemented FieldG fs ws ∧ ts = q ++ (ws ++ (u ++ r)) := by
  unfold pEntityFields at h
  cases h1 : pItems pEntityField (skipPad ts) with
  | mk fs' r1 =>
    rw [h1] at h
    simp only [Prod.mk.injEq] at h
    obtain ⟨rfl, rfl⟩ := h
    obtain ⟨q, hq, e1⟩ := skipPad_split ts
    obtain ⟨u, hu, e2⟩ := skipPad_split r1
    obtain ⟨ws, e3, hw⟩ := pItems_sound (fun _ _ _ => pEntityField_sound) _ _ _ h1
    refine ⟨q, ws, u, ?_, hw, ?_⟩
    · intro t ht
      rw [List.mem_append] at ht
      rcases ht with ht | ht
      · exact hq t ht
      · exact hu t ht
    · rw [← e2, ← e3, ← e1]

theorem pEntityDefinition_sound {ts r : List Token} {d : EntityDefinition} (h : pEntityDefinition ts = some (d, r)) :
    ∃ w, ts = w ++ r ∧ DefinitionG implemented d w := by
  simp only [pEntityDefinition, Option.bind_eq_bind, Option.bind_eq_some_iff, Prod.exists] at h
  obtain ⟨n, r1, h1, ⟨⟩, r2, h2, ⟨⟩, r4, h4, h5⟩ := h
  simp only [Option.some.injEq, Prod.mk.injEq] at h5
  obtain ⟨rfl, rfl⟩ := h5
  have e1 := pIdent_some h1
  obtain ⟨p, hp, e2⟩ := skipPad_split r1
  have e3 := pJust_some h2
  have e4 := pJust_some h4
  obtain ⟨q, ws, u, hqu, hw, e5⟩ := pEntityFields_sound (ts := r2) (fs := (pEntityFields r2).1) (r := (pEntityFields r2).2) rfl
  refine ⟨.ident n :: (p ++ .ctrl '{' :: (q ++ (ws ++ (u ++ [.ctrl '}'])))), ?_, p, q, ws, u, ?_, hw, fun _ => Or.inl trivial, rfl⟩
  · rw [e1, e2, e3, e5, e4]; simp
  · intro t ht
    simp only [List.mem_append] at ht hqu
    rcases ht with (ht | ht) | ht
    · exact hp t ht
    · exact hqu t (Or.inl ht)
    · exact hqu t (Or.inr ht)

theorem pEntityDefinition_complete (d : EntityDefinition) (w r : List Token) (h : DefinitionG implemented d w) :
    pEntityDefinition (w ++ r) = some (d, r) := by
  obtain ⟨p, q, ws, u, hpad, hw, -, rfl⟩ := h
  have hp : ∀ t ∈ p, IsSeparator t := fun t ht => hpad t (by simp [ht])
  have hq : ∀ t ∈ q, IsSeparator t := fun t ht => hpad t (by simp [ht])
  have hu : ∀ t ∈ u, IsSeparator t := fun t ht => hpad t (by simp [ht])
  have e : .ident d.name :: (p ++ .ctrl '{' :: (q ++ (ws ++ (u ++ [.ctrl '}'])))) ++ r =
      .ident d.name :: (p ++ .ctrl '{' :: (q ++ (ws ++ (u ++ .ctrl '}' :: r)))) := by simp
  rw [e]
  simp only [pEntityDefinition, pIdent, Option.bind_eq_bind, Option.bind_some, skipPad_to hp not_sep_open, pJust_self,
    pEntityFields_complete hw hq hu]

theorem pRelation_sound {ts r : List Token} {x : EntityRelation} (h : pRelation ts = some (x, r)) :
    ∃ w, ts = w ++ r ∧ RelationG implemented x w := by
  simp only [pRelation, Option.bind_eq_bind, Option.bind_eq_some_iff, Prod.exists] at h
  obtain ⟨a, r1, h1, ⟨⟩, r2, h2, b, r3, h3, h4⟩ := h
  simp only [Option.some.injEq, Prod.mk.injEq] at h4
  obtain ⟨rfl, rfl⟩ := h4
  obtain ⟨wa, e1, ha⟩ := pEntity_sound h1
  obtain ⟨p, hp, e2⟩ := skipPad_split r1
  have e3 := pJust_some h2
  obtain ⟨q, hq, e4⟩ := skipPad_split r2
  obtain ⟨wb, e5, hb⟩ := pEntity_sound h3
  refine ⟨wa ++ (p ++ .edge :: (q ++ wb)), ?_, wa, p, q, wb, ha, hb, ?_, rfl⟩
  · rw [e1, e2, e3, e4, e5]; simp
  · intro t ht
    rw [List.mem_append] at ht
    rcases ht with ht | ht
    · exact hp t ht
    · exact hq t ht

theorem pIdent_sep_edge {p : List Token} (hp : ∀ t ∈ p, IsSeparator t) (r : List Token) : pIdent (p ++ .edge :: r) = none := by
  cases p with
  | nil => rfl
  | cons t p => rcases hp t (by simp) with rfl | rfl <;> rfl

theorem DottedEnd.head {p : EntityPath} {w : List Token} (h : DottedEnd p w) : ∃ s w', w = .ident s :: .ctrl '.' :: w' := by
  cases h with
  | field t f => exact ⟨_, _, rfl⟩
  | entity t => exact ⟨_, _, rfl⟩

theorem pRelation_complete (x : EntityRelation) (w r : List Token) (h : RelationG implemented x w) (hr : Ended r) :
    pRelation (w ++ r) = some (x, r) := by
  obtain ⟨a, p, q, b, ha, hb, hpad, rfl⟩ := h
  have hp : ∀ t ∈ p, IsSeparator t := fun t ht => hpad t (by simp [ht])
  have hq : ∀ t ∈ q, IsSeparator t := fun t ht => hpad t (by simp [ht])
  obtain ⟨s, b', hb'⟩ := DottedEnd.head hb
  have e : a ++ (p ++ .edge :: (q ++ b)) ++ r = a ++ (p ++ .edge :: (q ++ (b ++ r))) := by simp
  have hskip : skipPad (q ++ (b ++ r)) = b ++ r := by
    rw [hb', List.cons_append, skipPad_to hq (not_sep_ident s)]
  rw [e]
  simp only [pRelation, pEntity_complete _ _ _ ha (pIdent_sep_edge hp _), Option.bind_eq_bind, Option.bind_some,
    skipPad_to hp not_sep_edge, pJust_self, hskip, pEntity_complete _ _ _ hb (pIdent_ended hr)]

theorem pModuleEntry_sound (ts : List Token) (x : ModuleEntry) (r : List Token) (h : pModuleEntry ts = some (x, r)) :
    ∃ w, ts = w ++ r ∧ EntryG implemented x w := by
  unfold pModuleEntry at h
  split at h
  · rename_i d r' h1
    simp only [Option.some.injEq, Prod.mk.injEq] at h
    obtain ⟨rfl, rfl⟩ := h
    obtain ⟨w, e, hw⟩ := pEntityDefinition_sound h1
    exact ⟨w, e, .definition hw⟩
  · split at h
    · rename_i d r' h1
      simp only [Option.some.injEq, Prod.mk.injEq] at h
      obtain ⟨rfl, rfl⟩ := h
      obtain ⟨w, e, hw⟩ := pRelation_sound h1
      exact ⟨w, e, .relation hw⟩
    · cases h

theorem pModuleEntry_complete (x : ModuleEntry) (w r : List Token) (h : EntryG implemented x w) (hr : Ended r) :
    pModuleEntry (w ++ r) = some (x, r) := by
  cases h with
  | definition h => simp only [pModuleEntry, pEntityDefinition_complete _ _ r h]
  | relation h =>
    have hno : pEntityDefinition (w ++ r) = none := by
      obtain ⟨a, p, q, b, ha, hb, hpad, rfl⟩ := h
      obtain ⟨s, a', rfl⟩ := DottedEnd.head ha
      simp only [pEntityDefinition, List.cons_append, pIdent, Option.bind_eq_bind, Option.bind_some, skipPad_stop not_sep_dot]
      rfl
    simp only [pModuleEntry, hno, pRelation_complete _ _ _ h hr]

theorem EntryG.head {x : ModuleEntry} {w : List Token} (h : EntryG implemented x w) : ∃ t w', w = t :: w' ∧ ¬ IsSeparator t := by
  cases h with
  | definition h =>
    obtain ⟨p, q, ws, u, -, -, -, rfl⟩ := h
    exact ⟨_, _, rfl, not_sep_ident _⟩
  | relation h =>
    obtain ⟨a, p, q, b, ha, hb, hpad, rfl⟩ := h
    obtain ⟨s, a', rfl⟩ := DottedEnd.head ha
    exact ⟨_, _, rfl, not_sep_ident _⟩

theorem foldl_addEntry (es : List ModuleEntry) (m : Module) : es.foldl Module.addEntry m = ⟨m.name, m.entries ++ es⟩ := by
  induction es generalizing m with
  | nil => simp
  | cons e es ih => rw [List.foldl_cons, ih]; simp [Module.addEntry]

theorem pModule_sound {ts r : List Token} {m : Module} (h : pModule ts = some (m, r)) : ∃ w, ts = w ++ r ∧ ModuleG implemented m w := by
  simp only [pModule, Option.bind_eq_bind, Option.bind_eq_some_iff, Prod.exists] at h
  obtain ⟨⟨⟩, r1, h1, ⟨⟩, r2, h2, ⟨⟩, r3, h3, h4⟩ := h
  simp only [Option.some.injEq, Prod.mk.injEq, foldl_addEntry, Module.new, List.nil_append] at h4
  obtain ⟨rfl, rfl⟩ := h4
  obtain ⟨p, hp, e1⟩ := skipPad_split ts
  have e2 := pJust_some h1
  obtain ⟨q, hq, e3⟩ := skipPad_split r1
  have e5 := pJust_some h2
  obtain ⟨v, hv, e6⟩ := skipPad_split r2
  obtain ⟨ws, e7, hw⟩ := pItems_sound pModuleEntry_sound (skipPad r2) (pModuleEntries (skipPad r2)).1 (pModuleEntries (skipPad r2)).2 rfl
  obtain ⟨u, hu, e8⟩ := skipPad_split (pModuleEntries (skipPad r2)).2
  have e9 := pJust_some h3
  obtain ⟨y, hy, e10⟩ := skipPad_split r3
  have hname : ∃ n, NameG implemented (pOrNot (fun ts => (pIdent (skipPad ts)).map fun (s, ts) => (s, skipPad ts)) (skipPad r1)).1 n ∧
      skipPad r1 = n ++ (pOrNot (fun ts => (pIdent (skipPad ts)).map fun (s, ts) => (s, skipPad ts)) (skipPad r1)).2 := by
    have hidem : skipPad (skipPad r1) = skipPad r1 := by
      rcases dropWhile_head isSep r1 with h | ⟨a, r, h, ha⟩
      · rw [skipPad, skipPad, h]; rfl
      · rw [skipPad, skipPad, h, List.dropWhile_cons_of_neg (by simp [ha])]
    unfold pOrNot
    simp only [hidem]
    cases h5 : pIdent (skipPad r1) with
    | none => exact ⟨[], .none, rfl⟩
    | some x =>
      obtain ⟨s, r6⟩ := x
      obtain ⟨z, hz, e11⟩ := skipPad_split r6
      refine ⟨.ident s :: z, .some s z hz, ?_⟩
      rw [pIdent_some h5]
      simp only [Option.map_some, List.cons_append]
      rw [← e11]
  obtain ⟨n, hn, e4⟩ := hname
  refine ⟨p ++ .erd :: (q ++ (n ++ .ctrl '{' :: (v ++ (ws ++ (u ++ .ctrl '}' :: y))))), ?_, p, q, n, v, ws, u, y, ?_, hn, hw, rfl⟩
  · conv_lhs => rw [e1, e2, e3, e4, e5, e6, e7, e8, e9, e10]
    simp
  · intro t ht
    simp only [List.mem_append] at ht
    rcases ht with (((ht | ht) | ht) | ht) | ht
    · exact hp t ht
    · exact hq t ht
    · exact hv t ht
    · exact hu t ht
    · exact hy t ht

theorem pModule_complete (m : Module) (w r : List Token) (h : ModuleG implemented m w) : ∃ r', pModule (w ++ r) = some (m, r') := by
  obtain ⟨p, q, n, v, ws, u, y, hpad, hn, hw, rfl⟩ := h
  have hp : ∀ t ∈ p, IsSeparator t := fun t ht => hpad t (by simp [ht])
  have hq : ∀ t ∈ q, IsSeparator t := fun t ht => hpad t (by simp [ht])
  have hv : ∀ t ∈ v, IsSeparator t := fun t ht => hpad t (by simp [ht])
  have hu : ∀ t ∈ u, IsSeparator t := fun t ht => hpad t (by simp [ht])
  have e : p ++ .erd :: (q ++ (n ++ .ctrl '{' :: (v ++ (ws ++ (u ++ .ctrl '}' :: y))))) ++ r =
      p ++ .erd :: (q ++ (n ++ .ctrl '{' :: (v ++ (ws ++ (u ++ .ctrl '}' :: (y ++ r)))))) := by simp
  rw [e]
  obtain ⟨u', hu', he⟩ := pItems_complete (item := pModuleEntry) pModuleEntry_complete (fun r => rfl) (fun _ _ => EntryG.head) hw hv hu (y ++ r)
  have hname : ∀ X, pOrNot (fun ts => (pIdent (skipPad ts)).map fun (s, ts) => (s, skipPad ts)) (skipPad (q ++ (n ++ .ctrl '{' :: X))) =
      (m.name, .ctrl '{' :: X) := by
    intro X
    obtain ⟨mn, me⟩ := m
    simp only at hn
    cases hn with
    | none =>
      rw [List.nil_append, skipPad_to hq not_sep_open]
      simp [pOrNot, skipPad_stop not_sep_open, pIdent]
    | some s z hz =>
      rw [List.cons_append, skipPad_to hq (not_sep_ident s)]
      simp [pOrNot, skipPad_stop (not_sep_ident s), pIdent, skipPad_to hz not_sep_open]
  refine ⟨skipPad (y ++ r), ?_⟩
  simp only [pModule, skipPad_to hp not_sep_erd, pJust_self, Option.bind_eq_bind, Option.bind_some, hname, pModuleEntries, he,
    skipPad_to hu' not_sep_close, foldl_addEntry, Module.new, List.nil_append]

end Seiren
