import Verif.Props.Parser
/-! # C10, continued: exactly which sentences of the documented grammar are accepted -/

namespace Seiren
open Spec

/-- The weight of a sequence of tokens. -/
def weigh (f : Token → Int) (w : List Token) : Int := (w.map f).sum

theorem weigh_append (f : Token → Int) (a b : List Token) : weigh f (a ++ b) = weigh f a + weigh f b := by
  simp [weigh]

theorem weigh_cons (f : Token → Int) (t : Token) (b : List Token) : weigh f (t :: b) = f t + weigh f b := by
  simp [weigh]

theorem weigh_zero (f : Token → Int) {p : List Token} (h : ∀ t ∈ p, f t = 0) : weigh f p = 0 := by
  induction p with
  | nil => rfl
  | cons t p ih => rw [weigh_cons, h t (by simp), ih fun t ht => h t (by simp [ht])]; rfl

theorem more_weigh {α : Type} {D : Dialect} {item : α → List Token → Prop} (f : Token → Int) (g : α → Int)
    (hs : ∀ t, IsSeparator t → f t = 0) (hp : ∀ t, D.pad t → f t = 0) (hi : ∀ a w, item a w → weigh f w = g a)
    {as : List α} {w : List Token} (h : More D item as w) : weigh f w = (as.map g).sum := by
  induction h with
  | done => rfl
  | more s p a w as v h1 h2 h3 h4 ih =>
    rw [weigh_cons, weigh_append, weigh_append, hs s h1, weigh_zero f fun t ht => hp t (h2 t ht), hi a w h3, ih]
    simp

theorem items_weigh {α : Type} {D : Dialect} {item : α → List Token → Prop} (f : Token → Int) (g : α → Int)
    (hs : ∀ t, IsSeparator t → f t = 0) (hp : ∀ t, D.pad t → f t = 0) (hi : ∀ a w, item a w → weigh f w = g a)
    {as : List α} {w : List Token} (h : Items D item as w) : weigh f w = (as.map g).sum := by
  cases h with
  | empty => rfl
  | items a w as v h1 h2 =>
    rw [weigh_append, hi a w h1, more_weigh f g hs hp hi h2]
    simp

/-- Weights under which everything in a module weighs nothing except relations: `g` is the weight of a relation. -/
theorem module_weigh {D : Dialect} (f : Token → Int) (g : EntityRelation → Int) (h0 : ∀ t, f t ≠ 0 → t = .edge ∨ t = .ctrl '.' ∨ t = .ctrl '{' ∨ t = .ctrl '}')
    (hb : f (.ctrl '{') + f (.ctrl '}') = 0) (hpad : ∀ t, D.pad t → IsSeparator t)
    (hr : ∀ r w, RelationG D r w → weigh f w = g r) {m : Module} {w : List Token} (h : ModuleG D m w) :
    weigh f w = (m.entries.map fun e => match e with | .definition _ => 0 | .relation r => g r).sum := by
  have hs : ∀ t, IsSeparator t → f t = 0 := by
    intro t ht
    by_contra hne
    rcases h0 t hne with rfl | rfl | rfl | rfl <;> rcases ht with ht | ht <;> simp at ht
  have hid : ∀ s, f (.ident s) = 0 := by
    intro s
    by_contra hne
    rcases h0 _ hne with h | h | h | h <;> cases h
  have hty : ∀ t, f (typeToken t) = 0 := by
    intro t
    by_contra hne
    rcases h0 _ hne with h | h | h | h <;> cases t <;> cases h
  have hkey : ∀ k, weigh f (keyTokens k) = 0 := by
    intro k
    refine weigh_zero f fun t ht => ?_
    by_contra hne
    rcases k with _ | _ | _
    · cases ht
    · simp only [keyTokens, List.mem_singleton] at ht
      subst ht
      rcases h0 _ hne with h | h | h | h <;> cases h
    · simp only [keyTokens, List.mem_singleton] at ht
      subst ht
      rcases h0 _ hne with h | h | h | h <;> cases h
  have herd : f .erd = 0 := by
    by_contra hne
    rcases h0 _ hne with h | h | h | h <;> cases h
  have hpz : ∀ {p : List Token}, (∀ t ∈ p, D.pad t) → weigh f p = 0 := fun h => weigh_zero f fun t ht => hs t (hpad t (h t ht))
  have hfield : ∀ a w, FieldG a w → weigh f w = (fun _ => 0 : EntityField → Int) a := by
    rintro a w rfl
    rw [weigh_cons, weigh_cons, hid, hty, hkey]; rfl
  have hentry : ∀ e w, EntryG D e w → weigh f w = (fun e : ModuleEntry => match e with | .definition _ => 0 | .relation r => g r) e := by
    intro e w he
    cases he with
    | definition hd =>
      rename_i d
      obtain ⟨p, q, ws, r, h1, h2, -, rfl⟩ := hd
      have h3 : weigh f ws = 0 := by
        rw [items_weigh f (fun _ => 0) hs (fun t ht => hs t (hpad t ht)) hfield h2]
        induction d.fields with
        | nil => rfl
        | cons a as ih => rw [List.map_cons, List.sum_cons, ih]; rfl
      simp only [weigh_cons, weigh_append, hid, h3, hpz (p := p) fun t ht => h1 t (by simp [ht]), hpz (p := q) fun t ht => h1 t (by simp [ht]),
        hpz (p := r) fun t ht => h1 t (by simp [ht])]
      have h4 : weigh f [] = 0 := rfl
      omega
    | relation h => exact hr _ _ h
  obtain ⟨p, q, n, r, ws, u, v, h1, h2, h3, rfl⟩ := h
  have h4 : weigh f n = 0 := by
    generalize m.name = mn at h2
    cases h2 with
    | none => rfl
    | some s p hp => rw [weigh_cons, hid, hpz hp]; rfl
  have h5 := items_weigh f _ hs (fun t ht => hs t (hpad t ht)) hentry h3
  simp only [weigh_cons, weigh_append, herd, h4, hpz (p := p) fun t ht => h1 t (by simp [ht]), hpz (p := q) fun t ht => h1 t (by simp [ht]),
    hpz (p := r) fun t ht => h1 t (by simp [ht]), hpz (p := u) fun t ht => h1 t (by simp [ht]), hpz (p := v) fun t ht => h1 t (by simp [ht]), h5]
  omega

/-- Braces: opening ones weigh 1, closing ones -1. -/
def braces : Token → Int := fun t => if t = .ctrl '{' then 1 else if t = .ctrl '}' then -1 else 0

/-- Dots weigh 1, edges -2. -/
def dots : Token → Int := fun t => if t = .ctrl '.' then 1 else if t = .edge then -2 else 0

theorem braces_zero {t : Token} (h1 : t ≠ .ctrl '{') (h2 : t ≠ .ctrl '}') : braces t = 0 := by simp [braces, h1, h2]

/-- Closing braces are never ahead. -/
def Nested (w : List Token) : Prop := ∀ a b, w = a ++ b → 0 ≤ weigh braces a

theorem Nested.append {v w : List Token} (h : Nested v) (h' : Nested w) : Nested (v ++ w) := by
  intro a b hab
  rcases List.append_eq_append_iff.mp hab with ⟨x, h1, h2⟩ | ⟨x, h1, h2⟩
  · rw [h1, weigh_append]
    have := h v [] (by simp)
    have := h' x b h2
    omega
  · exact h a x h1

theorem nested_flat {w : List Token} (h : ∀ t ∈ w, t ≠ .ctrl '{' ∧ t ≠ .ctrl '}') : Nested w := by
  rintro a b rfl
  rw [weigh_zero]
  intro t ht
  exact braces_zero (h t (by simp [ht])).1 (h t (by simp [ht])).2

theorem nested_more {α : Type} {D : Dialect} {item : α → List Token → Prop} (hp : ∀ t, D.pad t → IsSeparator t)
    (hi : ∀ a w, item a w → Nested w) {as : List α} {w : List Token} (h : More D item as w) : Nested w := by
  have hsep : ∀ t, IsSeparator t → t ≠ .ctrl '{' ∧ t ≠ .ctrl '}' := by
    rintro t (rfl | rfl) <;> decide
  induction h with
  | done => exact nested_flat (by simp)
  | more s p a w as v h1 h2 h3 h4 ih =>
    have e : s :: (p ++ (w ++ v)) = (s :: p) ++ (w ++ v) := rfl
    rw [e]
    refine (nested_flat ?_).append ((hi a w h3).append ih)
    intro t ht
    rcases List.mem_cons.mp ht with rfl | ht
    · exact hsep _ h1
    · exact hsep _ (hp _ (h2 _ ht))

theorem nested_items {α : Type} {D : Dialect} {item : α → List Token → Prop} (hp : ∀ t, D.pad t → IsSeparator t)
    (hi : ∀ a w, item a w → Nested w) {as : List α} {w : List Token} (h : Items D item as w) : Nested w := by
  cases h with
  | empty => exact nested_flat (by simp)
  | items a w as v h1 h2 => exact (hi a w h1).append (nested_more hp hi h2)

/-- No braces. -/
def Flat (w : List Token) : Prop := ∀ t ∈ w, t ≠ .ctrl '{' ∧ t ≠ .ctrl '}'

theorem flat_items {α : Type} {D : Dialect} {item : α → List Token → Prop} (hp : ∀ t, D.pad t → IsSeparator t)
    (hi : ∀ a w, item a w → Flat w) {as : List α} {w : List Token} (h : Items D item as w) : Flat w := by
  have hsep : ∀ t, IsSeparator t → t ≠ .ctrl '{' ∧ t ≠ .ctrl '}' := by
    rintro t (rfl | rfl) <;> decide
  have hmore : ∀ {as w}, More D item as w → Flat w := by
    intro as w h
    induction h with
    | done => intro t ht; simp at ht
    | more s p a w as v h1 h2 h3 h4 ih =>
      intro t ht
      simp only [List.mem_cons, List.mem_append] at ht
      rcases ht with rfl | ht | ht | ht
      · exact hsep _ h1
      · exact hsep _ (hp _ (h2 _ ht))
      · exact hi a w h3 t ht
      · exact ih t ht
  cases h with
  | empty => intro t ht; simp at ht
  | items a w as v h1 h2 =>
    intro t ht
    rcases List.mem_append.mp ht with ht | ht
    · exact hi a w h1 t ht
    · exact hmore h2 t ht

theorem flat_pad {p : List Token} (h : ∀ t ∈ p, IsSeparator t) : Flat p := by
  intro t ht
  rcases h t ht with rfl | rfl <;> decide

/-- `x { y }` is nested if `y` is, and `x { y` has an open brace. -/
theorem nested_block {x y : List Token} (hx : Flat x) (hy : Nested y) (hw : weigh braces y = 0) : Nested (x ++ .ctrl '{' :: (y ++ [.ctrl '}'])) := by
  refine (nested_flat hx).append ?_
  intro a b hab
  cases a with
  | nil => simp [weigh]
  | cons t a =>
    simp only [List.cons_append, List.cons.injEq] at hab
    obtain ⟨rfl, hab⟩ := hab
    rw [weigh_cons]
    have h1 : braces (.ctrl '{') = 1 := by decide
    rw [h1]
    rcases List.append_eq_append_iff.mp hab with ⟨z, h2, h3⟩ | ⟨z, h2, h3⟩
    · rw [h2, weigh_append, hw]
      cases z with
      | nil => simp [weigh]
      | cons t z =>
        simp only [List.cons_append, List.cons.injEq] at h3
        obtain ⟨rfl, h3⟩ := h3
        have : z = [] := by
          cases z with
          | nil => rfl
          | cons _ _ => simp at h3
        subst this
        decide
    · have := hy a z h2
      omega

theorem flat_weigh {w : List Token} (h : Flat w) : weigh braces w = 0 :=
  weigh_zero _ fun t ht => braces_zero (h t ht).1 (h t ht).2

/-- The entries of a module are nested. -/
theorem nested_entry {D : Dialect} (hp : ∀ t, D.pad t → IsSeparator t) (he : ∀ p w, D.ends p w → Flat w) {e : ModuleEntry} {w : List Token}
    (h : EntryG D e w) : Nested w := by
  cases h with
  | definition hd =>
    rename_i d
    obtain ⟨p, q, ws, r, h1, h2, -, rfl⟩ := hd
    have hw : Flat ws := by
      refine flat_items hp ?_ h2
      rintro a w rfl t ht
      simp only [List.mem_cons] at ht
      rcases ht with rfl | rfl | ht
      · simp
      · cases a.fieldType <;> simp [typeToken]
      · generalize a.fieldKey = k at ht
        rcases k with _ | _ | _
        · simp [keyTokens] at ht
        · simp only [keyTokens, List.mem_singleton] at ht
          subst ht
          decide
        · simp only [keyTokens, List.mem_singleton] at ht
          subst ht
          decide
    have hf : Flat (q ++ (ws ++ r)) := by
      intro t ht
      simp only [List.mem_append] at ht
      rcases ht with ht | ht | ht
      · exact flat_pad (fun t ht => hp t (h1 t (by simp [ht]))) t ht
      · exact hw t ht
      · exact flat_pad (fun t ht => hp t (h1 t (by simp [ht]))) t ht
    have := nested_block (x := .ident d.name :: p) (y := q ++ (ws ++ r)) (by
      intro t ht
      rcases List.mem_cons.mp ht with rfl | ht
      · simp
      · exact flat_pad (fun t ht => hp t (h1 t (by simp [ht]))) t ht) (nested_flat hf) (flat_weigh hf)
    simpa using this
  | relation hr =>
    obtain ⟨a, p, q, b, h1, h2, h3, rfl⟩ := hr
    refine nested_flat ?_
    intro t ht
    simp only [List.mem_append, List.mem_cons] at ht
    rcases ht with ht | ht | rfl | ht | ht
    · exact he _ _ h1 t ht
    · exact flat_pad (fun t ht => hp t (h3 t (by simp [ht]))) t ht
    · simp
    · exact flat_pad (fun t ht => hp t (h3 t (by simp [ht]))) t ht
    · exact he _ _ h2 t ht

/-- `x { y }` without braces in `x` and with matching ones in `y`. -/
def Block (k : List Token) : Prop := ∃ x y, k = x ++ .ctrl '{' :: (y ++ [.ctrl '}']) ∧ Flat x ∧ Nested y ∧ weigh braces y = 0

theorem block_prefix {k k' : List Token} (h : Block k) (h' : Block k') (hp : k <+: k') : k = k' := by
  obtain ⟨x, y, rfl, hx, hy, hw⟩ := h
  obtain ⟨x', y', rfl, hx', hy', hw'⟩ := h'
  obtain ⟨z, hz⟩ := hp
  rcases List.eq_nil_or_concat z with rfl | ⟨z, d, rfl⟩
  · simpa using hz
  exfalso
  have hz' : (x ++ .ctrl '{' :: (y ++ [.ctrl '}'])) ++ z = x' ++ .ctrl '{' :: y' := by
    have : ((x ++ .ctrl '{' :: (y ++ [.ctrl '}'])) ++ z) ++ [d] = (x' ++ .ctrl '{' :: y') ++ [.ctrl '}'] := by simpa using hz
    exact (List.append_inj' this rfl).1
  have hk : weigh braces (x ++ .ctrl '{' :: (y ++ [.ctrl '}'])) = 0 := by
    rw [weigh_append, weigh_cons, weigh_append, hw, flat_weigh hx]
    decide
  rcases List.append_eq_append_iff.mp hz' with ⟨u, h1, h2⟩ | ⟨u, h1, h2⟩
  · exact (hx' (.ctrl '{') (by rw [h1]; simp)).1 rfl
  · cases u with
    | nil =>
      simp only [List.append_nil] at h1
      exact (hx' (.ctrl '{') (by rw [← h1]; simp)).1 rfl
    | cons t u =>
      simp only [List.cons_append, List.cons.injEq] at h2
      obtain ⟨rfl, h2⟩ := h2
      rw [h1, weigh_append, weigh_cons, flat_weigh hx'] at hk
      have h3 := hy' u z h2
      have h4 : braces (.ctrl '{') = 1 := by decide
      omega

/-- A module consists of a block and separators. -/
theorem module_block {D : Dialect} {m : Module} {w : List Token} (hp : ∀ t, D.pad t → IsSeparator t) (he : ∀ p w, D.ends p w → Flat w)
    (h : ModuleG D m w) : ∃ k v, w = k ++ v ∧ Block k ∧ ∀ t ∈ v, IsSeparator t := by
  obtain ⟨p, q, n, r, ws, u, v, h1, h2, h3, rfl⟩ := h
  refine ⟨p ++ .erd :: (q ++ (n ++ .ctrl '{' :: (r ++ (ws ++ (u ++ [.ctrl '}']))))), v, by simp, ?_, fun t ht => hp t (h1 t (by simp [ht]))⟩
  have hr : Flat r := flat_pad fun t ht => hp t (h1 t (by simp [ht]))
  have hu : Flat u := flat_pad fun t ht => hp t (h1 t (by simp [ht]))
  have hn : Flat n := by
    generalize m.name = mn at h2
    cases h2 with
    | none => intro t ht; simp at ht
    | some s p h =>
      intro t ht
      rcases List.mem_cons.mp ht with rfl | ht
      · simp
      · exact flat_pad (fun t ht => hp t (h t ht)) t ht
  refine ⟨p ++ .erd :: (q ++ n), r ++ (ws ++ u), by simp, ?_, (nested_flat hr).append ((nested_items hp (fun a w => nested_entry hp he) h3).append (nested_flat hu)), ?_⟩
  · intro t ht
    simp only [List.mem_append, List.mem_cons] at ht
    rcases ht with ht | rfl | ht | ht
    · exact flat_pad (fun t ht => hp t (h1 t (by simp [ht]))) t ht
    · simp
    · exact flat_pad (fun t ht => hp t (h1 t (by simp [ht]))) t ht
    · exact hn t ht
  · have hsep : ∀ t, IsSeparator t → braces t = 0 := by
      rintro t (rfl | rfl) <;> decide
    have h0 : ∀ t, braces t ≠ 0 → t = .edge ∨ t = .ctrl '.' ∨ t = .ctrl '{' ∨ t = .ctrl '}' := by
      intro t ht
      by_contra hne
      push Not at hne
      exact ht (braces_zero hne.2.2.1 hne.2.2.2)
    have hm := module_weigh braces (fun _ => 0) h0 (by decide) hp (by
      rintro x w ⟨a, p, q, b, e1, e2, e3, rfl⟩
      rw [weigh_append, weigh_append, weigh_cons, weigh_append, flat_weigh (he _ _ e1), flat_weigh (he _ _ e2),
        flat_weigh (flat_pad fun t ht => hp t (e3 t (by simp [ht]))), flat_weigh (flat_pad fun t ht => hp t (e3 t (by simp [ht])))]
      decide) ⟨p, q, n, r, ws, u, v, h1, h2, h3, rfl⟩
    have hz : (m.entries.map fun e => match e with | .definition _ => (0 : Int) | .relation _ => 0).sum = 0 := by
      generalize m.entries = es
      induction es with
      | nil => rfl
      | cons e es ih => cases e <;> simpa using ih
    rw [hz] at hm
    simp only [weigh_cons, weigh_append, flat_weigh hr, flat_weigh hu, flat_weigh hn, flat_weigh (flat_pad (p := p) fun t ht => hp t (h1 t (by simp [ht]))),
      flat_weigh (flat_pad (p := q) fun t ht => hp t (h1 t (by simp [ht]))), flat_weigh (flat_pad (p := v) fun t ht => hp t (h1 t (by simp [ht])))] at hm ⊢
    have b1 : braces (.ctrl '{') = 1 := by decide
    have b2 : braces (.ctrl '}') = -1 := by decide
    have b3 : braces .erd = 0 := by decide
    omega

/-- If two modules, written down in one of the grammars each, begin a text, they end at the same brace. -/
theorem modules_end {D D' : Dialect} (hp : ∀ t, D.pad t → IsSeparator t) (he : ∀ p w, D.ends p w → Flat w)
    (hp' : ∀ t, D'.pad t → IsSeparator t) (he' : ∀ p w, D'.ends p w → Flat w)
    {m m' : Module} {w w' r r' : List Token} (h : ModuleG D m w) (h' : ModuleG D' m' w') (hr : w ++ r = w' ++ r') :
    ∃ k v v', w = k ++ v ∧ w' = k ++ v' ∧ (∀ t ∈ v, IsSeparator t) ∧ ∀ t ∈ v', IsSeparator t := by
  obtain ⟨k, v, rfl, hk, hv⟩ := module_block hp he h
  obtain ⟨k', v', rfl, hk', hv'⟩ := module_block hp' he' h'
  refine ⟨k, v, v', rfl, ?_, hv, hv'⟩
  have h1 : k <+: (k ++ v) ++ r := ⟨v ++ r, by simp⟩
  have h2 : k' <+: (k ++ v) ++ r := ⟨v' ++ r', by rw [hr]; simp⟩
  rcases List.prefix_or_prefix_of_prefix h1 h2 with h3 | h3
  · rw [block_prefix hk hk' h3]
  · rw [block_prefix hk' hk h3]

theorem ends_flat_implemented (p : EntityPath) (w : List Token) (h : DottedEnd p w) : Flat w := by
  cases h <;> simp [Flat]

theorem ends_flat_documented (p : EntityPath) (w : List Token) (h : DocumentedEnd p w) : Flat w := by
  cases h <;> simp [Flat]

/-- The number of ends of a relation that name no field. -/
def plainEnds (r : EntityRelation) : Int :=
  (match r.startPath with | .field _ _ => 0 | .entity _ => 1) + (match r.endPath with | .field _ _ => 0 | .entity _ => 1)

theorem dots_zero {t : Token} (h : IsSeparator t) : dots t = 0 := by rcases h with rfl | rfl <;> decide

theorem dots_support (t : Token) (ht : dots t ≠ 0) : t = .edge ∨ t = .ctrl '.' ∨ t = .ctrl '{' ∨ t = .ctrl '}' := by
  by_contra hne
  push Not at hne
  exact ht (by simp [dots, hne.1, hne.2.1])

/-- **C10**, the documented sentences that are accepted: whatever follows it, a sentence of the documented grammar is accepted exactly
if all relation ends in it name fields; and then it is read as documented. -/
theorem C10_accepted_exactly_partial (m : Module) (w r : List Token) (h : ModuleG documented m w) :
    ((∃ m', (parseTokens (w ++ r)).1 = some m') ↔ FieldEnds m) ∧ (FieldEnds m → parseTokens (w ++ r) = (some m, [])) := by
  have hpd : ∀ t, documented.pad t → IsSeparator t := fun t ht => .inl ht
  have hacc : FieldEnds m → parseTokens (w ++ r) = (some m, []) := by
    intro hf
    refine C13_refuted m w r (ModuleG.mono (fun t _ ht => Or.inl ht) ?_ (fun _ _ _ _ => trivial) h)
    intro r hr v
    obtain ⟨⟨t, f, h1⟩, ⟨t', f', h2⟩⟩ := hf r hr
    rw [h1, h2]
    constructor
    · intro hv; cases hv; exact .field _ _
    · intro hv; cases hv; exact .field _ _
  refine ⟨⟨?_, fun hf => ⟨m, by rw [hacc hf]⟩⟩, hacc⟩
  rintro ⟨m', hm'⟩
  rw [C09_grammar_exact] at hm'
  obtain ⟨w', r', hr, h'⟩ := hm'
  obtain ⟨k, v, v', rfl, rfl, hv, hv'⟩ := modules_end hpd ends_flat_documented (D' := implemented) (fun t ht => ht) ends_flat_implemented h h' hr
  have hpz : ∀ {p : List Token}, (∀ t ∈ p, IsSeparator t) → weigh dots p = 0 := fun h => weigh_zero _ fun t ht => dots_zero (h t ht)
  have h1 := module_weigh dots (fun r => - plainEnds r) dots_support (by decide) hpd (by
    rintro x w ⟨a, p, q, b, e1, e2, e3, rfl⟩
    have key : ∀ {p w}, DocumentedEnd p w → weigh dots w = 1 - (match p with | .field _ _ => 0 | .entity _ => 1 : Int) := by
      intro p w h
      cases h <;> rfl
    rw [weigh_append, weigh_append, weigh_cons, weigh_append, key e1, key e2, hpz fun t ht => hpd t (e3 t (by simp [ht])),
      hpz fun t ht => hpd t (e3 t (by simp [ht]))]
    have : dots .edge = -2 := by decide
    rw [plainEnds, this]
    omega) h
  have h2 := module_weigh dots (fun _ => 0) dots_support (by decide) (D := implemented) (fun t ht => ht) (by
    rintro x w ⟨a, p, q, b, e1, e2, e3, rfl⟩
    have key : ∀ {p w}, DottedEnd p w → weigh dots w = 1 := by
      intro p w h
      cases h <;> rfl
    rw [weigh_append, weigh_append, weigh_cons, weigh_append, key e1, key e2, hpz fun t ht => e3 t (by simp [ht]),
      hpz fun t ht => e3 t (by simp [ht])]
    decide) h'
  have hz : (m'.entries.map fun e => match e with | .definition _ => (0 : Int) | .relation _ => 0).sum = 0 := by
    generalize m'.entries = es
    induction es with
    | nil => rfl
    | cons e es ih => cases e <;> simpa using ih
  rw [hz, weigh_append, hpz hv'] at h2
  rw [weigh_append, hpz hv, h2] at h1
  -- no end of a relation names no field
  have hsum : ∀ es : List ModuleEntry, 0 ≤ - (es.map fun e => match e with | .definition _ => (0 : Int) | .relation r => - plainEnds r).sum ∧
      ((es.map fun e => match e with | .definition _ => (0 : Int) | .relation r => - plainEnds r).sum = 0 →
        ∀ r, ModuleEntry.relation r ∈ es → plainEnds r = 0) := by
    intro es
    induction es with
    | nil => simp
    | cons e es ih =>
      obtain ⟨i1, i2⟩ := ih
      cases e with
      | definition d =>
        simp only [List.map_cons, List.sum_cons, List.mem_cons, reduceCtorEq, false_or, zero_add]
        exact ⟨i1, i2⟩
      | relation x =>
        have hx : 0 ≤ plainEnds x := by
          unfold plainEnds
          split <;> split <;> decide
        simp only [List.map_cons, List.sum_cons, List.mem_cons, ModuleEntry.relation.injEq]
        refine ⟨by omega, fun h0 => ?_⟩
        rintro r (rfl | hr)
        · omega
        · exact i2 (by omega) r hr
  intro x hx
  have h3 := (hsum m.entries).2 (by omega) x hx
  unfold plainEnds at h3
  cases hs : x.startPath <;> cases ht : x.endPath <;> simp [hs, ht] at h3 ⊢

/-- A documented sentence with a relation that has an end without a field is not accepted, one with fields only is. -/
example : (∃ m w, ModuleG documented m w ∧ ¬ FieldEnds m) ∧ (∃ m w, ModuleG documented m w ∧ FieldEnds m ∧ m.entries ≠ []) := by
  refine ⟨⟨⟨none, [.relation ⟨.entity c!"a", .entity c!"a"⟩]⟩, plainRelation, ?_, ?_⟩,
    ⟨⟨none, [.relation ⟨.field c!"a" c!"b", .field c!"a" c!"b"⟩]⟩, _, ⟨[], [], [], [], _, [], [], by simp, .none,
      Items.items (ModuleEntry.relation ⟨.field c!"a" c!"b", .field c!"a" c!"b"⟩) _ [] []
        (EntryG.relation (D := documented) ⟨_, [], [], _, DocumentedEnd.field _ _, DocumentedEnd.field _ _, by simp, rfl⟩) .done, rfl⟩, ?_, by simp⟩⟩
  · refine ⟨[], [], [], [], [.ident c!"a", .edge, .ident c!"a"], [], [], by simp, .none, ?_, rfl⟩
    exact Items.items (ModuleEntry.relation ⟨.entity c!"a", .entity c!"a"⟩) _ [] [] (EntryG.relation (D := documented) ⟨[.ident c!"a"], [], [], [.ident c!"a"], DocumentedEnd.entity _, DocumentedEnd.entity _, by simp, rfl⟩) .done
  · intro h
    obtain ⟨⟨t, f, h1⟩, -⟩ := h ⟨.entity c!"a", .entity c!"a"⟩ (by simp)
    cases h1
  · intro r hr
    simp only [List.mem_singleton, ModuleEntry.relation.injEq] at hr
    subst hr
    exact ⟨⟨_, _, rfl⟩, _, _, rfl⟩

end Seiren
