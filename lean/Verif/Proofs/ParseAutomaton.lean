import Verif.Proofs.ParseErrors
/-! # The parser fails at the first token an automaton rejects -/

namespace Seiren

/-- States: before `erd`; after `erd`; after the module's name; before an entry; after an entry's first name; the
same after separators; before a field; after a field's name; its type; its key; after an entry; after the dot of a
relation's start; after its field; after `o--o`; after the end's name; after its dot; after the module. -/
inductive St where
  | s0 | s1 | s2 | s3 | e1 | e2 | f0 | f1 | f2 | f3 | s4 | r1 | r2 | r3 | r4 | r5 | acc
  deriving DecidableEq, Repr

def St.sep : St → Option St
  | .s0 => some .s0 | .s1 => some .s1 | .s2 => some .s2 | .s3 => some .s3 | .e1 => some .e2 | .e2 => some .e2
  | .f0 => some .f0 | .f1 => none | .f2 => some .f0 | .f3 => some .f0 | .s4 => some .s3 | .r1 => some .r2 | .r2 => some .r2
  | .r3 => some .r3 | .r4 => none | .r5 => some .s3 | .acc => some .acc

def St.opens : St → Option St
  | .s1 => some .s3 | .s2 => some .s3 | .e1 => some .f0 | .e2 => some .f0 | _ => none

def St.closes : St → Option St
  | .s3 => some .acc | .s4 => some .acc | .r5 => some .acc | .f0 => some .s4 | .f2 => some .s4 | .f3 => some .s4 | _ => none

def St.dot : St → Option St
  | .e1 => some .r1 | .r4 => some .r5 | _ => none

def St.name : St → Option St
  | .s1 => some .s2 | .s3 => some .e1 | .f0 => some .f1 | .r1 => some .r2 | .r3 => some .r4 | .r5 => some .s4 | _ => none

def St.edge : St → Option St
  | .r1 => some .r3 | .r2 => some .r3 | _ => none

def St.erd : St → Option St
  | .s0 => some .s1 | _ => none

def St.type : St → Option St
  | .f1 => some .f2 | _ => none

def St.key : St → Option St
  | .f2 => some .f3 | _ => none

def St.step (s : St) : Token → Option St
  | .newline => s.sep
  | .ctrl c => if c = ';' then s.sep else if c = '{' then s.opens else if c = '}' then s.closes else if c = '.' then s.dot else none
  | .edge => s.edge
  | .ident _ => s.name
  | .erd => s.erd
  | .int => s.type
  | .uuid => s.type
  | .text => s.type
  | .timestamp => s.type
  | .pk => s.key
  | .fk => s.key

/-- Where the automaton stops: its state there and the number of tokens left. -/
def crash (s : St) : List Token → St × Nat
  | [] => (s, 0)
  | t :: ts => match s.step t with | none => (s, ts.length + 1) | some s' => crash s' ts

def IsIdent (t : Token) : Prop := ∃ n, t = .ident n

/-- The tokens a state lists as expected. -/
def St.Lists (s : St) (t : Token) : Prop := ¬ IsIdent t ∧ (s.step t).isSome

/-- An error not further than the automaton gets, and with nothing that is not expected. -/
def Good (c : St × Nat) (e : Located) : Prop := c.2 ≤ e.left ∧ (e.left = c.2 → ∀ t ∈ e.expected, c.1.Lists t)

/-- The error where the automaton stops, with everything that is expected. -/
def Exact (c : St × Nat) (e : Located) : Prop := c.1 ≠ .acc ∧ e.left = c.2 ∧ ∀ t, t ∈ e.expected ↔ c.1.Lists t

def GoodAlt (c : St × Nat) (a : Option Located) : Prop := ∀ e ∈ a, Good c e

def ExactAlt (c : St × Nat) (a : Option Located) : Prop := ∃ e ∈ a, Exact c e

/-- The alternative is further to the right than `n`, or lists `t` there. -/
def Covered (a : Option Located) (n : Nat) (t : Token) : Prop := ∃ e ∈ a, e.left < n ∨ (e.left = n ∧ t ∈ e.expected)

theorem Exact.good {c : St × Nat} {e : Located} (h : Exact c e) : Good c e :=
  ⟨h.2.1.ge, fun _ t ht => (h.2.2 t).1 ht⟩

theorem Good.max {c : St × Nat} {a b : Located} (ha : Good c a) (hb : Good c b) : Good c (a.max b) := by
  simp only [Located.max]
  split
  · exact ha
  · split
    · exact hb
    · refine ⟨ha.1, fun h t ht => ?_⟩
      simp only [List.mem_append] at ht
      simp only at h
      rcases ht with ht | ht
      · exact ha.2 h t ht
      · exact hb.2 (by have := hb.1; omega) t ht

theorem Exact.max_left {c : St × Nat} {a b : Located} (ha : Exact c a) (hb : Good c b) : Exact c (a.max b) := by
  simp only [Located.max]
  split
  · exact ha
  · split
    · have := ha.2.1; have := hb.1; omega
    · refine ⟨ha.1, ha.2.1, fun t => ?_⟩
      simp only [List.mem_append]
      refine ⟨fun h => h.elim (ha.2.2 t).1 fun h => hb.2 ?_ t h, fun h => Or.inl ((ha.2.2 t).2 h)⟩
      have := ha.2.1; have := hb.1; omega

theorem Exact.max_right {c : St × Nat} {a b : Located} (ha : Good c a) (hb : Exact c b) : Exact c (a.max b) := by
  simp only [Located.max]
  split
  · have := hb.2.1; have := ha.1; omega
  · split
    · exact hb
    · refine ⟨hb.1, ?_, fun t => ?_⟩
      · have := hb.2.1; have := ha.1; simp only; omega
      simp only [List.mem_append]
      refine ⟨fun h => h.elim (fun h => ha.2 ?_ t h) (hb.2.2 t).1, fun h => Or.inr ((hb.2.2 t).2 h)⟩
      have := hb.2.1; have := ha.1; omega

theorem Good.maxOpt {c : St × Nat} {a : Located} {b : Option Located} (ha : Good c a) (hb : GoodAlt c b) : Good c (a.maxOpt b) := by
  rcases b with _ | b
  · exact ha
  · exact ha.max (hb b rfl)

theorem Exact.maxOpt {c : St × Nat} {a : Located} {b : Option Located} (ha : Good c a) (hb : GoodAlt c b)
    (h : Exact c a ∨ ExactAlt c b) : Exact c (a.maxOpt b) := by
  rcases b with _ | b
  · rcases h with h | ⟨e, he, _⟩
    · exact h
    · simp at he
  · rcases h with h | ⟨e, he, h⟩
    · exact h.max_left (hb b rfl)
    · simp only [Option.mem_def, Option.some.injEq] at he
      subst he
      exact Exact.max_right ha h

theorem GoodAlt.none (c : St × Nat) : GoodAlt c none := by intro e he; simp at he

theorem GoodAlt.some {c : St × Nat} {e : Located} (h : Good c e) : GoodAlt c (some e) := by
  intro e' he; simp only [Option.mem_def, Option.some.injEq] at he; exact he ▸ h

theorem GoodAlt.merge {c : St × Nat} {a b : Option Located} (ha : GoodAlt c a) (hb : GoodAlt c b) : GoodAlt c (mergeAlts a b) := by
  rcases a with _ | a
  · exact hb
  · exact GoodAlt.some ((ha a rfl).maxOpt hb)

theorem ExactAlt.merge {c : St × Nat} {a b : Option Located} (ha : GoodAlt c a) (hb : GoodAlt c b)
    (h : ExactAlt c a ∨ ExactAlt c b) : ExactAlt c (mergeAlts a b) := by
  rcases a with _ | a
  · rcases h with ⟨e, he, _⟩ | h
    · simp at he
    · exact h
  · refine ⟨_, rfl, Exact.maxOpt (ha a rfl) hb ?_⟩
    rcases h with ⟨e, he, h⟩ | h
    · simp only [Option.mem_def, Option.some.injEq] at he
      exact Or.inl (he ▸ h)
    · exact Or.inr h

theorem Covered.merge {a b : Option Located} {n : Nat} {t : Token} (h : Covered a n t ∨ Covered b n t) :
    Covered (mergeAlts a b) n t := by
  rcases a with _ | a
  · rcases h with ⟨e, he, _⟩ | h
    · simp at he
    · exact h
  · rcases b with _ | b
    · rcases h with h | ⟨e, he, _⟩
      · exact h
      · simp at he
    · refine ⟨_, rfl, ?_⟩
      simp only [Covered, Option.mem_def, Option.some.injEq, exists_eq_left'] at h
      simp only [Located.maxOpt, Located.max]
      split
      · rcases h with h | h
        · exact h
        · omega
      · split
        · rcases h with h | h
          · omega
          · exact h
        · simp only [List.mem_append]
          have : a.left = b.left := by omega
          rw [this] at h ⊢
          tauto

/-- A good error that covers everything expected where the automaton stops is exact. -/
theorem Exact.of_covered {c : St × Nat} {e : Located} (hc : c.1 ≠ .acc) (hg : Good c e) (hl : e.left ≤ c.2)
    (h : ∀ t, c.1.Lists t → Covered (some e) c.2 t) : Exact c e := by
  have hl' : e.left = c.2 := le_antisymm hl hg.1
  refine ⟨hc, hl', fun t => ⟨hg.2 hl' t, fun ht => ?_⟩⟩
  obtain ⟨e', he, h⟩ := h t ht
  simp only [Option.mem_def, Option.some.injEq] at he
  subst he
  rcases h with h | h
  · omega
  · exact h.2

theorem crash_le (s : St) (ts : List Token) : (crash s ts).2 ≤ ts.length := by
  induction ts generalizing s with
  | nil => simp [crash]
  | cons t ts ih =>
    rw [crash]
    rcases s.step t with _ | s'
    · simp
    · have := ih s'; simp; omega

theorem crash_cons {s s' : St} {t : Token} (h : s.step t = some s') (ts : List Token) : crash s (t :: ts) = crash s' ts := by
  rw [crash, h]

theorem crash_dead {s : St} {ts : List Token} (h : ∀ t r, ts = t :: r → s.step t = none) : crash s ts = (s, ts.length) := by
  rcases ts with _ | ⟨t, r⟩
  · rfl
  · rw [crash, h t r rfl]; rfl

/-- An error at the present token with tokens the state lists is good. -/
theorem Good.here {s : St} {ts : List Token} {E : List Token} (h : ∀ t ∈ E, s.Lists t) : Good (crash s ts) ⟨ts.length, E⟩ := by
  refine ⟨crash_le s ts, fun hl t ht => ?_⟩
  rcases ts with _ | ⟨x, r⟩
  · exact h t ht
  · rw [crash] at hl ⊢
    rcases hs : s.step x with _ | s'
    · simpa [hs] using h t ht
    · rw [hs] at hl
      simp only at hl
      have := crash_le s' r
      simp at hl; omega

theorem step_isSep {s : St} {t : Token} (h : isSep t = true) : s.step t = s.sep := by
  simp only [isSep, Bool.or_eq_true, beq_iff_eq] at h
  rcases h with rfl | rfl <;> rfl

theorem not_ident_sep {t : Token} (h : isSep t = true) : ¬ IsIdent t := by
  rintro ⟨n, rfl⟩; simp [isSep] at h

theorem mem_sepExpected (t : Token) : t ∈ sepExpected ↔ isSep t = true := by
  simp only [sepExpected, isSep, List.mem_cons, List.not_mem_nil, or_false, Bool.or_eq_true, beq_iff_eq]
  tauto

theorem lists_sepExpected {s : St} (h : s.sep.isSome) : ∀ t ∈ sepExpected, s.Lists t := by
  intro t ht
  rw [mem_sepExpected] at ht
  exact ⟨not_ident_sep ht, by rw [step_isSep ht]; exact h⟩

/-- The state after some separators. -/
theorem crash_skipPad {s s' : St} (h : s.sep = some s') (h' : s'.sep = some s') (ts : List Token) :
    crash s ts = crash (if skipPad ts = ts then s else s') (skipPad ts) := by
  have key : ∀ ts, crash s' ts = crash s' (skipPad ts) := by
    intro ts
    induction ts with
    | nil => rfl
    | cons t r ih =>
      rw [skipPad_cons]
      split
      · rename_i ht
        rw [crash_cons (by rw [step_isSep ht, h']), ih]
      · rfl
  rcases ts with _ | ⟨t, r⟩
  · simp [skipPad]
  · rw [skipPad_cons]
    split
    · rename_i ht
      rw [crash_cons (by rw [step_isSep ht, h]), key r]
      have : skipPad r ≠ t :: r := by
        intro e
        have := skipPad_length_le r
        rw [e] at this; simp at this
      rw [if_neg this]
    · simp

theorem crash_skipPad_same {s : St} (h : s.sep = some s) (ts : List Token) : crash s ts = crash s (skipPad ts) := by
  rw [crash_skipPad h h]; simp

/-! ## Lists of items -/

/-- After an item only what `alt` lists, separators and `}` are expected. -/
def Pend (s : St) (rest : List Token) (alt : Option Located) : Prop :=
  (∀ t r, rest = t :: r → (s.step t).isSome → isSep t = true ∨ t = .ctrl '}') ∧
  ∀ t, s.Lists t → isSep t = true ∨ t = .ctrl '}' ∨ Covered alt rest.length t

structure ItemSpec {α : Type} (item : LP α) (b close : St) (E : St → Prop) : Prop where
  ok : ∀ ts a alt rest, item ts = .ok (a, alt, rest) →
    ∃ s', E s' ∧ crash b ts = crash s' rest ∧ rest.length < ts.length ∧ GoodAlt (crash s' rest) alt ∧ Pend s' rest alt
  err : ∀ ts e, item ts = .error e → Good (crash b ts) e ∧ ((∃ n r, ts = .ident n :: r) → Exact (crash b ts) e)
  after : ∀ s, E s → s.sep = some b ∧ s.step (.ctrl '}') = some close ∧ s ≠ .acc
  sep : b.sep = some b
  closes : b.step (.ctrl '}') = some close
  notAcc : b ≠ .acc
  reads : ∀ t, (b.step t).isSome → isSep t = true ∨ t = .ctrl '}' ∨ IsIdent t

/-- What is known before the closing brace of a list of items. -/
inductive Ready (b : St) (E : St → Prop) (c : St × Nat) (rest : List Token) (alt : Option Located) : Prop
  | empty (hc : crash b rest = c) (hg : GoodAlt c alt) (hm : (∃ n r, skipPad rest = .ident n :: r) → ExactAlt c alt) : Ready b E c rest alt
  | items (s : St) (hs : E s) (hc : crash s rest = c) (hg : GoodAlt c alt) (hp : Pend s rest alt)
      (hm : skipPad rest ≠ rest → (∃ n r, skipPad rest = .ident n :: r) → ExactAlt c alt) : Ready b E c rest alt

theorem Ready.good {b : St} {E : St → Prop} {c : St × Nat} {rest : List Token} {alt : Option Located} (h : Ready b E c rest alt) :
    GoodAlt c alt := by
  cases h <;> assumption

theorem lJust_ok {t : Token} {ts r : List Token} {u : Unit} {alt : Option Located} (h : lJust t ts = .ok (u, alt, r)) :
    alt = none ∧ ts = t :: r := by
  rcases ts with _ | ⟨x, ts⟩
  · simp [lJust] at h
  · simp only [lJust] at h
    split at h
    · simp_all
    · simp at h

theorem lJust_err {t : Token} {ts : List Token} {e : Located} (h : lJust t ts = .error e) :
    e = ⟨ts.length, [t]⟩ ∧ ∀ r, ts ≠ t :: r := by
  rcases ts with _ | ⟨x, ts⟩
  · simp [lJust] at h; exact ⟨h.symm, by simp⟩
  · simp only [lJust] at h
    split at h
    · simp at h
    · simp_all
      intro e; simp_all

/-- The closing brace. -/
theorem Ready.close {α : Type} {item : LP α} {b close : St} {E : St → Prop} (H : ItemSpec item b close E) {c : St × Nat}
    {rest : List Token} {alt A : Option Located} (h : Ready b E c rest alt) (hA : GoodAlt c A) (hx : ExactAlt c alt → ExactAlt c A)
    (hcov : ∀ n t, Covered alt n t → Covered A n t) (hsep : ∀ t, isSep t = true → Covered A (skipPad rest).length t) :
    (∀ r, skipPad rest = .ctrl '}' :: r → c = crash close r) ∧
    ((∀ r, skipPad rest ≠ .ctrl '}' :: r) → Exact c ((⟨(skipPad rest).length, [.ctrl '}']⟩ : Located).maxOpt A)) := by
  have hclose : ∀ (s : St), s.step (.ctrl '}') = some close → s.Lists (.ctrl '}') := fun s hs =>
    ⟨by rintro ⟨n, h⟩; simp at h, by simp [hs]⟩
  -- the state `s` at the brace, not followed by a separator
  have main : ∀ s, crash s (skipPad rest) = c → s.step (.ctrl '}') = some close → s ≠ .acc →
      (ExactAlt c alt ∨ ((∀ t r, skipPad rest = t :: r → (s.step t).isSome → isSep t = true ∨ t = .ctrl '}') ∧
        ∀ t, s.Lists t → isSep t = true ∨ t = .ctrl '}' ∨ Covered alt (skipPad rest).length t)) →
      (∀ r, skipPad rest = .ctrl '}' :: r → c = crash close r) ∧
      ((∀ r, skipPad rest ≠ .ctrl '}' :: r) → Exact c ((⟨(skipPad rest).length, [.ctrl '}']⟩ : Located).maxOpt A)) := by
    intro s hc hcl hna hor
    refine ⟨fun r hr => by rw [← hc, hr, crash_cons hcl], fun hne => ?_⟩
    have hgood : Good c ⟨(skipPad rest).length, [.ctrl '}']⟩ := by
      rw [← hc]
      refine Good.here fun t ht => ?_
      simp only [List.mem_singleton] at ht
      exact ht ▸ hclose s hcl
    rcases hor with hor | ⟨hd, hl⟩
    · exact Exact.maxOpt hgood hA (Or.inr (hx hor))
    · have hcr : c = (s, (skipPad rest).length) := by
        rw [← hc]
        refine crash_dead fun t r hr => ?_
        by_contra hs
        rcases hd t r hr (Option.isSome_iff_ne_none.mpr hs) with h1 | rfl
        · have := skipPad_head hr; simp [h1] at this
        · exact hne r hr
      refine Exact.of_covered (by rw [hcr]; exact hna) (hgood.maxOpt hA) ?_ fun t ht => ?_
      · rw [hcr]
        rcases A with _ | a
        · simp [Located.maxOpt]
        · simp only [Located.maxOpt, Located.max]
          split
          · exact le_refl _
          · split
            · exact (by omega : a.left ≤ (skipPad rest).length)
            · exact le_refl _
      · rw [hcr] at ht ⊢
        have hm : Covered (mergeAlts (some ⟨(skipPad rest).length, [.ctrl '}']⟩) A) (skipPad rest).length t := by
          refine Covered.merge ?_
          rcases hl t ht with h1 | rfl | h1
          · exact Or.inr (hsep t h1)
          · exact Or.inl ⟨_, rfl, Or.inr ⟨rfl, by simp⟩⟩
          · exact Or.inr (hcov _ _ h1)
        exact hm
  cases h with
  | empty hc hg hm =>
    rw [crash_skipPad_same H.sep] at hc
    refine main b hc H.closes H.notAcc ?_
    by_cases hi : ∃ n r, skipPad rest = .ident n :: r
    · exact Or.inl (hm hi)
    · refine Or.inr ⟨fun t r hr ht => ?_, fun t ht => ?_⟩
      · rcases H.reads t ht with h | h | ⟨n, rfl⟩
        · exact Or.inl h
        · exact Or.inr h
        · exact absurd ⟨n, r, hr⟩ hi
      · rcases H.reads t ht.2 with h | h | h
        · exact Or.inl h
        · exact Or.inr (Or.inl h)
        · exact absurd h ht.1
  | items s hs hc hg hp hm =>
    obtain ⟨h1, h2, h3⟩ := H.after s hs
    by_cases he : skipPad rest = rest
    · refine main s (by rw [he]; exact hc) h2 h3 (Or.inr ?_)
      rw [he]
      exact hp
    · rw [crash_skipPad h1 H.sep, if_neg he] at hc
      refine main b hc H.closes H.notAcc ?_
      by_cases hi : ∃ n r, skipPad rest = .ident n :: r
      · exact Or.inl (hm he hi)
      · refine Or.inr ⟨fun t r hr ht => ?_, fun t ht => ?_⟩
        · rcases H.reads t ht with h | h | ⟨n, rfl⟩
          · exact Or.inl h
          · exact Or.inr h
          · exact absurd ⟨n, r, hr⟩ hi
        · rcases H.reads t ht.2 with h | h | h
          · exact Or.inl h
          · exact Or.inr (Or.inl h)
          · exact absurd h ht.1

/-- The padding in front of the closing brace. -/
theorem Ready.good_pad {α : Type} {item : LP α} {b close : St} {E : St → Prop} (H : ItemSpec item b close E) {c : St × Nat}
    {rest : List Token} {alt : Option Located} (h : Ready b E c rest alt) : Good c ⟨(skipPad rest).length, sepExpected⟩ := by
  have hb : b.sep.isSome := by simp [H.sep]
  cases h with
  | empty hc hg hm =>
    rw [← hc, crash_skipPad_same H.sep]
    exact Good.here (lists_sepExpected hb)
  | items s hs hc hg hp hm =>
    obtain ⟨h1, _, _⟩ := H.after s hs
    rw [← hc, crash_skipPad h1 H.sep]
    refine Good.here (lists_sepExpected ?_)
    split
    · simp [h1]
    · exact hb

theorem Pend.mono {s : St} {rest : List Token} {a a' : Option Located} (h : Pend s rest a)
    (hc : ∀ n t, Covered a n t → Covered a' n t) : Pend s rest a' :=
  ⟨h.1, fun t ht => (h.2 t ht).imp_right (Or.imp_right (hc _ _))⟩

/-- One more item: a separator, padding, the item. -/
theorem step_spec {α : Type} {item : LP α} {b close : St} {E : St → Prop} (H : ItemSpec item b close E) {s : St} (hs : E s)
    (ts : List Token) :
    (∀ a alt rest, lIgnoreThen (lIgnoreThen lSep lPad) item ts = .ok (a, alt, rest) →
      ∃ s', E s' ∧ crash s ts = crash s' rest ∧ rest.length < ts.length ∧ GoodAlt (crash s' rest) alt ∧ Pend s' rest alt) ∧
    (∀ e, lIgnoreThen (lIgnoreThen lSep lPad) item ts = .error e → Good (crash s ts) e ∧
      (skipPad ts ≠ ts → (∃ n r, skipPad ts = .ident n :: r) → Exact (crash s ts) e)) := by
  obtain ⟨h1, h2, h3⟩ := H.after s hs
  have hss : s.sep.isSome := by simp [h1]
  have hbb : b.sep.isSome := by simp [H.sep]
  have bad : ∀ e : Located, e = ⟨ts.length, sepExpected⟩ → skipPad ts = ts → Good (crash s ts) e ∧
      (skipPad ts ≠ ts → (∃ n r, skipPad ts = .ident n :: r) → Exact (crash s ts) e) := by
    rintro e rfl hp
    exact ⟨Good.here (lists_sepExpected hss), fun h => absurd hp h⟩
  rcases ts with _ | ⟨t, r⟩
  · refine ⟨fun a alt rest h => ?_, fun e h => ?_⟩
    · simp [lIgnoreThen, lMap, lThen, lSep_eq] at h
    · simp [lIgnoreThen, lMap, lThen, lSep_eq] at h
      exact bad e h.symm rfl
  · by_cases ht : isSep t = true
    · obtain ⟨us, hu⟩ := lPad_eq r
      have hcr : crash s (t :: r) = crash b (skipPad r) := by
        rw [crash_cons (by rw [step_isSep ht, h1]), crash_skipPad_same H.sep]
      have hsk : skipPad (t :: r) = skipPad r := by rw [skipPad_cons, if_pos ht]
      have hgp : Good (crash b (skipPad r)) ⟨(skipPad r).length, sepExpected⟩ := Good.here (lists_sepExpected hbb)
      have hlen := skipPad_length_le r
      rcases hi : item (skipPad r) with e' | ⟨a', alt', rest'⟩
      · have heq : lIgnoreThen (lIgnoreThen lSep lPad) item (t :: r) = .error (e'.maxOpt (some ⟨(skipPad r).length, sepExpected⟩)) := by
          simp [lIgnoreThen, lMap, lThen, lSep_eq, ht, hu, hi, mergeAlts]
        refine ⟨fun a alt rest h => by simp [heq] at h, fun e h => ?_⟩
        rw [heq] at h
        simp only [Except.error.injEq] at h
        subst h
        obtain ⟨hg, hx⟩ := H.err _ _ hi
        rw [hcr, hsk]
        refine ⟨hg.maxOpt (GoodAlt.some hgp), fun _ hn => Exact.maxOpt hg (GoodAlt.some hgp) (Or.inl (hx hn))⟩
      · have heq : lIgnoreThen (lIgnoreThen lSep lPad) item (t :: r) =
            .ok (a', mergeAlts (some ⟨(skipPad r).length, sepExpected⟩) alt', rest') := by
          simp [lIgnoreThen, lMap, lThen, lSep_eq, ht, hu, hi, mergeAlts]
        refine ⟨fun a alt rest h => ?_, fun e h => by simp [heq] at h⟩
        rw [heq] at h
        simp only [Except.ok.injEq, Prod.mk.injEq] at h
        obtain ⟨rfl, rfl, rfl⟩ := h
        obtain ⟨s', hE, hc, hl, hg, hp⟩ := H.ok _ _ _ _ hi
        rw [hcr]
        refine ⟨s', hE, hc, by simp; omega, ?_, hp.mono fun n t h => Covered.merge (Or.inr h)⟩
        exact GoodAlt.merge (GoodAlt.some (hc ▸ hgp)) hg
    · have hsk : skipPad (t :: r) = t :: r := by rw [skipPad_cons, if_neg ht]
      refine ⟨fun a alt rest h => ?_, fun e h => ?_⟩
      · simp [lIgnoreThen, lMap, lThen, lSep_eq, ht] at h
      · simp [lIgnoreThen, lMap, lThen, lSep_eq, ht] at h
        exact bad e h.symm hsk

theorem loop_spec {α : Type} {item : LP α} {b close : St} {E : St → Prop} (H : ItemSpec item b close E) (fuel : Nat) {s : St} (hs : E s)
    (ts : List Token) (alt : Option Located) (hf : ts.length < fuel) (hg : GoodAlt (crash s ts) alt) (hp : Pend s ts alt) :
    Ready b E (crash s ts) (lRepeatedLoop (lIgnoreThen (lIgnoreThen lSep lPad) item) fuel alt ts).2.2
      (lRepeatedLoop (lIgnoreThen (lIgnoreThen lSep lPad) item) fuel alt ts).2.1 := by
  induction fuel generalizing s ts alt with
  | zero => omega
  | succ fuel ih =>
    rw [lRepeatedLoop]
    obtain ⟨hok, herr⟩ := step_spec H hs ts
    rcases hi : lIgnoreThen (lIgnoreThen lSep lPad) item ts with e | ⟨a, alt', rest⟩
    · obtain ⟨hg', hx⟩ := herr e hi
      simp only
      refine .items s hs rfl (hg.merge (GoodAlt.some hg')) (hp.mono fun n t h => Covered.merge (Or.inl h)) fun h1 h2 => ?_
      exact ExactAlt.merge hg (GoodAlt.some hg') (Or.inr ⟨e, rfl, hx h1 h2⟩)
    · obtain ⟨s', hE, hc, hl, hg', hp'⟩ := hok _ _ _ hi
      simp only
      rw [hc] at hg ⊢
      exact ih hE rest _ (by omega) (hg.merge hg') (hp'.mono fun n t h => Covered.merge (Or.inr h))

theorem mergeAlts_assoc (a b c : Option Located) : mergeAlts (mergeAlts a b) c = mergeAlts a (mergeAlts b c) := by
  rcases a with _ | a
  · rfl
  rcases b with _ | b
  · rfl
  rcases c with _ | c
  · rfl
  simp only [mergeAlts, Located.maxOpt, Option.some.injEq, Located.max]
  split_ifs <;> (try rfl) <;> (try omega) <;> simp_all <;> (try omega)

theorem loop_alt {α : Type} (p : LP α) (fuel : Nat) (a alt : Option Located) (ts : List Token) :
    lRepeatedLoop p fuel (mergeAlts a alt) ts =
      ((lRepeatedLoop p fuel alt ts).1, mergeAlts a (lRepeatedLoop p fuel alt ts).2.1, (lRepeatedLoop p fuel alt ts).2.2) := by
  induction fuel generalizing alt ts with
  | zero => rfl
  | succ fuel ih =>
    simp only [lRepeatedLoop]
    rcases p ts with e | ⟨x, alt', rest⟩
    · simp only [mergeAlts_assoc]
    · simp only [mergeAlts_assoc, ih]

theorem mergeAlts_none (a : Option Located) : mergeAlts a none = a := by
  cases a <;> rfl

/-- A list of items. -/
theorem items_spec {α : Type} {item : LP α} {b close : St} {E : St → Prop} (H : ItemSpec item b close E) (ts : List Token)
    (hts : skipPad ts = ts) : ∃ o alt rest, lItems item ts = .ok (o, alt, rest) ∧ Ready b E (crash b ts) rest alt := by
  rcases hi : item ts with e | ⟨a, alt, rest⟩
  · obtain ⟨hg, hx⟩ := H.err _ _ hi
    refine ⟨none, some e, ts, by simp [lItems, lOrNot, lMap, lThen, hi], .empty rfl (GoodAlt.some hg) fun h => ?_⟩
    rw [hts] at h
    exact ⟨e, rfl, hx h⟩
  · obtain ⟨s', hE, hc, hl, hg', hp'⟩ := H.ok _ _ _ _ hi
    have h := loop_spec H (rest.length + 1) hE rest alt (by omega) hg' hp'
    have hl := loop_alt (lIgnoreThen (lIgnoreThen lSep lPad) item) (rest.length + 1) alt none rest
    rw [mergeAlts_none] at hl
    rw [hl] at h
    rw [hc]
    exact ⟨_, _, _, by simp only [lItems, lOrNot, lMap, lThen, hi, lRepeated]; rfl, h⟩

/-! ## The parsers of the grammar -/

theorem lIdent_err {ts : List Token} (h : ∀ n r, ts ≠ .ident n :: r) : lIdent ts = .error ⟨ts.length, []⟩ := by
  rcases ts with _ | ⟨t, r⟩
  · rfl
  · cases t <;> first | rfl | exact absurd rfl (h _ _)

theorem ident_cases (ts : List Token) : (∃ n r, ts = .ident n :: r) ∨ ∀ n r, ts ≠ .ident n :: r := by
  by_cases h : ∃ n r, ts = .ident n :: r
  · exact Or.inl h
  · exact Or.inr fun n r e => h ⟨n, r, e⟩

theorem just_cases (t : Token) (ts : List Token) : (∃ r, ts = t :: r) ∨ ∀ r, ts ≠ t :: r := by
  by_cases h : ∃ r, ts = t :: r
  · exact Or.inl h
  · exact Or.inr fun r e => h ⟨r, e⟩

theorem lJust_self (t : Token) (r : List Token) : lJust t (t :: r) = .ok ((), none, r) := by simp [lJust]

theorem lJust_ne {t : Token} {ts : List Token} (h : ∀ r, ts ≠ t :: r) : lJust t ts = .error ⟨ts.length, [t]⟩ := by
  rcases ts with _ | ⟨x, ts⟩
  · rfl
  · simp only [lJust]
    rw [if_neg (fun e => h ts (by rw [e]))]

/-- An error at the present token where nothing goes on. -/
theorem Exact.here {s : St} {ts : List Token} {E : List Token} (hs : s ≠ .acc) (hd : ∀ t r, ts = t :: r → s.step t = none)
    (h : ∀ t, t ∈ E ↔ s.Lists t) : Exact (crash s ts) ⟨ts.length, E⟩ := by
  rw [crash_dead hd]
  exact ⟨hs, rfl, h⟩

theorem not_ident_cases {P : Token → Prop} (h : ∀ t, ¬ IsIdent t → P t) (hi : ∀ n, P (.ident n)) (t : Token) : P t := by
  by_cases ht : IsIdent t
  · obtain ⟨n, rfl⟩ := ht; exact hi n
  · exact h t ht

theorem lists_iff (s : St) (t : Token) : s.Lists t ↔ match t with
    | .ident _ => False
    | t => (s.step t).isSome := by
  cases t <;> simp [St.Lists, IsIdent]

theorem lFieldType_cases (ts : List Token) :
    (∃ ty t r, ts = t :: r ∧ (∀ s : St, s.step t = s.type) ∧ lFieldType ts = .ok (ty, none, r)) ∨
    ((∀ t r, ts = t :: r → St.f1.step t = none) ∧ lFieldType ts = .error ⟨ts.length, [.timestamp, .text, .uuid, .int]⟩) := by
  rcases ts with _ | ⟨t, r⟩
  · exact Or.inr ⟨by simp, rfl⟩
  · have hc : ∀ c, St.f1.step (.ctrl c) = none := fun c => by simp [St.step, St.sep, St.opens, St.closes, St.dot]
    cases t with
    | int => exact Or.inl ⟨.int, _, r, rfl, fun _ => rfl, rfl⟩
    | uuid => exact Or.inl ⟨.uuid, _, r, rfl, fun _ => rfl, rfl⟩
    | text => exact Or.inl ⟨.text, _, r, rfl, fun _ => rfl, rfl⟩
    | timestamp => exact Or.inl ⟨.timestamp, _, r, rfl, fun _ => rfl, rfl⟩
    | ctrl c =>
      refine Or.inr ⟨by rintro t r' h; cases h; exact hc c, by simp [lFieldType, lChoice, lMap, lJust, Located.max]⟩
    | _ => exact Or.inr ⟨by rintro t r' h; cases h; rfl, by simp [lFieldType, lChoice, lMap, lJust, Located.max]⟩

theorem lFieldKey_cases (ts : List Token) :
    (∃ k t r, ts = t :: r ∧ (∀ s : St, s.step t = s.key) ∧ lOrNot lFieldKey ts = .ok (some k, none, r)) ∨
    ((∀ t r, ts = t :: r → (St.f2.step t).isSome → isSep t = true ∨ t = .ctrl '}') ∧
      lOrNot lFieldKey ts = .ok (none, some ⟨ts.length, [.fk, .pk]⟩, ts)) := by
  rcases ts with _ | ⟨t, r⟩
  · exact Or.inr ⟨by simp, rfl⟩
  · cases t with
    | pk => exact Or.inl ⟨.primaryKey, _, r, rfl, fun _ => rfl, rfl⟩
    | fk => exact Or.inl ⟨.foreignKey, _, r, rfl, fun _ => rfl, rfl⟩
    | ctrl c =>
      refine Or.inr ⟨?_, by simp [lFieldKey, lOrNot, lChoice, lMap, lJust, Located.max]⟩
      rintro t r' h h2; cases h
      simp only [St.step, St.sep, St.opens, St.closes, St.dot] at h2
      split_ifs at h2 <;> simp_all [isSep]
    | newline => exact Or.inr ⟨by rintro t r' h _; cases h; exact Or.inl rfl, by simp [lFieldKey, lOrNot, lChoice, lMap, lJust, Located.max]⟩
    | _ => exact Or.inr ⟨by rintro t r' h h2; cases h; simp [St.step, St.name, St.type, St.edge, St.erd] at h2, by simp [lFieldKey, lOrNot, lChoice, lMap, lJust, Located.max]⟩

/-- What a state can read, by kinds of tokens. -/
theorem step_some (s : St) (t : Token) : (s.step t).isSome ↔
    (isSep t = true ∧ s.sep.isSome) ∨ (t = .ctrl '{' ∧ s.opens.isSome) ∨ (t = .ctrl '}' ∧ s.closes.isSome) ∨ (t = .ctrl '.' ∧ s.dot.isSome) ∨
    (IsIdent t ∧ s.name.isSome) ∨ (t = .edge ∧ s.edge.isSome) ∨ (t = .erd ∧ s.erd.isSome) ∨
    (t ∈ [Token.timestamp, .text, .uuid, .int] ∧ s.type.isSome) ∨ (t ∈ [Token.fk, .pk] ∧ s.key.isSome) := by
  cases t with
  | ctrl c =>
    simp only [St.step, isSep, IsIdent, Token.ctrl.injEq]
    by_cases h1 : c = ';'
    · subst h1; simp
    by_cases h2 : c = '{'
    · subst h2; simp
    by_cases h3 : c = '}'
    · subst h3; simp
    by_cases h4 : c = '.'
    · subst h4; simp
    simp [h1, h2, h3, h4]
  | _ => simp [St.step, isSep, IsIdent]

theorem type_lists (t : Token) : t ∈ [Token.timestamp, .text, .uuid, .int] ↔ St.f1.Lists t := by
  rw [St.Lists, step_some]
  simp only [St.sep, St.opens, St.closes, St.dot, St.type, St.edge, St.erd, St.key, St.name, Option.isSome_none, Option.isSome_some,
    Bool.false_eq_true, and_false, false_or, or_false, and_true]
  refine ⟨fun h => ⟨?_, h⟩, fun h => h.2⟩
  rintro ⟨n, rfl⟩
  simp at h

theorem f3_some (t : Token) (h : (St.f3.step t).isSome) : isSep t = true ∨ t = .ctrl '}' := by
  rw [step_some] at h
  simpa [St.sep, St.opens, St.closes, St.dot, St.type, St.edge, St.erd, St.key, St.name] using h

theorem s4_some (t : Token) (h : (St.s4.step t).isSome) : isSep t = true ∨ t = .ctrl '}' := by
  rw [step_some] at h
  simpa [St.sep, St.opens, St.closes, St.dot, St.type, St.edge, St.erd, St.key, St.name] using h

theorem f2_some (t : Token) (h : (St.f2.step t).isSome) : isSep t = true ∨ t = .ctrl '}' ∨ t ∈ [Token.fk, .pk] := by
  rw [step_some] at h
  simpa [St.sep, St.opens, St.closes, St.dot, St.type, St.edge, St.erd, St.key, St.name] using h

theorem f0_some (t : Token) (h : (St.f0.step t).isSome) : isSep t = true ∨ t = .ctrl '}' ∨ IsIdent t := by
  rw [step_some] at h
  simpa [St.sep, St.opens, St.closes, St.dot, St.type, St.edge, St.erd, St.key, St.name] using h

theorem s3_some (t : Token) (h : (St.s3.step t).isSome) : isSep t = true ∨ t = .ctrl '}' ∨ IsIdent t := by
  rw [step_some] at h
  simpa [St.sep, St.opens, St.closes, St.dot, St.type, St.edge, St.erd, St.key, St.name] using h

theorem field_spec : ItemSpec lEntityField .f0 .s4 (fun s => s = .f2 ∨ s = .f3) where
  ok := by
    intro ts a alt rest h
    rcases ident_cases ts with ⟨n, r, rfl⟩ | hn
    · rcases lFieldType_cases r with ⟨ty, t, r', rfl, ht, hty⟩ | ⟨hd, hty⟩
      · have hc : crash .f0 (.ident n :: t :: r') = crash .f2 r' := by
          rw [crash_cons (s' := .f1) rfl, crash_cons (by rw [ht]; rfl)]
        rw [hc]
        rcases lFieldKey_cases r' with ⟨k, t', r'', rfl, ht', hk⟩ | ⟨hd, hk⟩
        · simp only [lEntityField, lMap, lThen, lIdent, hty, hk, mergeAlts, Except.ok.injEq, Prod.mk.injEq] at h
          obtain ⟨_, rfl, rfl⟩ := h
          exact ⟨.f3, Or.inr rfl, by rw [crash_cons (by rw [ht']; rfl)], by simp; omega, GoodAlt.none _,
            fun t _ _ h => f3_some t h, fun t h => (f3_some t h.2).imp_right Or.inl⟩
        · simp only [lEntityField, lMap, lThen, lIdent, hty, hk, mergeAlts, Except.ok.injEq, Prod.mk.injEq] at h
          obtain ⟨_, rfl, rfl⟩ := h
          refine ⟨.f2, Or.inl rfl, rfl, by simp; omega, GoodAlt.some (Good.here ?_), hd, ?_⟩
          · intro t ht
            simp only [List.mem_cons, List.not_mem_nil, or_false] at ht
            rw [lists_iff]
            rcases ht with rfl | rfl <;> rfl
          · intro t h
            rcases f2_some t h.2 with h | h | h
            · exact Or.inl h
            · exact Or.inr (Or.inl h)
            · exact Or.inr (Or.inr ⟨_, rfl, Or.inr ⟨rfl, h⟩⟩)
      · simp [lEntityField, lMap, lThen, lIdent, hty] at h
    · simp [lEntityField, lMap, lThen, lIdent_err hn] at h
  err := by
    intro ts e h
    rcases ident_cases ts with ⟨n, r, rfl⟩ | hn
    · rcases lFieldType_cases r with ⟨ty, t, r', rfl, ht, hty⟩ | ⟨hd, hty⟩
      · rcases lFieldKey_cases r' with ⟨k, t', r'', rfl, ht', hk⟩ | ⟨hd, hk⟩ <;>
          simp [lEntityField, lMap, lThen, lIdent, hty, hk] at h
      · simp only [lEntityField, lMap, lThen, lIdent, hty, Located.maxOpt, Except.error.injEq] at h
        subst h
        have hx : Exact (crash .f0 (.ident n :: r)) ⟨r.length, [.timestamp, .text, .uuid, .int]⟩ := by
          rw [crash_cons (s' := .f1) rfl]
          exact Exact.here (by simp) hd type_lists
        exact ⟨hx.good, fun _ => hx⟩
    · simp only [lEntityField, lMap, lThen, lIdent_err hn, Except.error.injEq] at h
      subst h
      exact ⟨Good.here (by simp), fun ⟨n, r, hr⟩ => absurd hr (hn n r)⟩
  after := by
    rintro s (rfl | rfl) <;> exact ⟨rfl, rfl, by simp⟩
  sep := rfl
  closes := rfl
  notAcc := by simp
  reads := f0_some

theorem e2_some (t : Token) : (St.e2.step t).isSome ↔ isSep t = true ∨ t = .ctrl '{' := by
  rw [step_some]
  simp [St.sep, St.opens, St.closes, St.dot, St.type, St.edge, St.erd, St.key, St.name]

/-- What is known after an entry. -/
theorem pend_s4 (rest : List Token) (alt : Option Located) : Pend .s4 rest alt :=
  ⟨fun t _ _ h => s4_some t h, fun t h => (s4_some t h.2).imp_right Or.inl⟩

/-- The errors of an entry: good, and exact once the first two tokens decide between definition and relation. -/
theorem definition_spec (n : Str) (r : List Token) :
    (∀ d alt rest, lEntityDefinition (.ident n :: r) = .ok (d, alt, rest) →
      crash .s3 (.ident n :: r) = crash .s4 rest ∧ GoodAlt (crash .s4 rest) alt) ∧
    (∀ e, lEntityDefinition (.ident n :: r) = .error e → Good (crash .s3 (.ident n :: r)) e ∧
      ((∃ t r', skipPad r = t :: r' ∧ t = .ctrl '{') ∨ skipPad r ≠ r → Exact (crash .s3 (.ident n :: r)) e) ∧
      (skipPad r = r → (∀ r', r ≠ .ctrl '{' :: r') → e = ⟨r.length, .ctrl '{' :: sepExpected⟩)) := by
  have hcr : crash .s3 (.ident n :: r) = crash (if skipPad r = r then .e1 else .e2) (skipPad r) := by
    rw [crash_cons (s' := .e1) rfl, crash_skipPad (s' := .e2) rfl rfl]
  obtain ⟨us, hu⟩ := lPad_eq r
  rw [hcr]
  rcases just_cases (.ctrl '{') (skipPad r) with ⟨r1, hr1⟩ | hne
  · -- the body
    have hopen : crash (if skipPad r = r then .e1 else .e2) (skipPad r) = crash .f0 r1 := by
      rw [hr1]; split <;> exact crash_cons rfl r1
    rw [hopen]
    -- the padding in front of the fields, the fields and the padding behind them
    obtain ⟨vs, hv⟩ := lPad_eq r1
    obtain ⟨o, alt, rest, hit, hready⟩ := items_spec field_spec (skipPad r1) (skipPad_idem r1)
    rw [← crash_skipPad_same (s := .f0) rfl r1] at hready
    obtain ⟨ws, hw⟩ := lPad_eq rest
    -- all alternatives up to the closing brace
    obtain ⟨A, hA⟩ : ∃ A, A = mergeAlts (some ⟨(skipPad r).length, sepExpected⟩) (mergeAlts (mergeAlts (some ⟨(skipPad r1).length, sepExpected⟩) alt)
      (some ⟨(skipPad rest).length, sepExpected⟩)) := ⟨_, rfl⟩
    have hg0 : Good (crash .f0 r1) ⟨(skipPad r).length, sepExpected⟩ := by
      rw [← hopen]
      refine Good.here (lists_sepExpected ?_)
      split <;> rfl
    have hg1 : Good (crash .f0 r1) ⟨(skipPad r1).length, sepExpected⟩ := by
      rw [crash_skipPad_same (s := .f0) rfl r1]
      exact Good.here (lists_sepExpected rfl)
    have hg2 := hready.good_pad field_spec
    have hgA : GoodAlt (crash .f0 r1) A := by
      rw [hA]
      exact GoodAlt.merge (GoodAlt.some hg0) (GoodAlt.merge (GoodAlt.merge (GoodAlt.some hg1) hready.good) (GoodAlt.some hg2))
    obtain ⟨hcl, hex⟩ := hready.close field_spec hgA
      (fun h => by
        rw [hA]
        exact ExactAlt.merge (GoodAlt.some hg0) (GoodAlt.merge (GoodAlt.merge (GoodAlt.some hg1) hready.good) (GoodAlt.some hg2))
          (Or.inr (ExactAlt.merge (GoodAlt.merge (GoodAlt.some hg1) hready.good) (GoodAlt.some hg2)
            (Or.inl (ExactAlt.merge (GoodAlt.some hg1) hready.good (Or.inr h))))))
      (fun n t h => by rw [hA]; exact Covered.merge (Or.inr (Covered.merge (Or.inl (Covered.merge (Or.inr h))))))
      (fun t h => by rw [hA]; exact Covered.merge (Or.inr (Covered.merge (Or.inr ⟨_, rfl, Or.inr ⟨rfl, (mem_sepExpected t).2 h⟩⟩))))
    rcases just_cases (.ctrl '}') (skipPad rest) with ⟨r2, hr2⟩ | hne2
    · have heq : lEntityDefinition (.ident n :: r) = .ok (⟨n, o.getD []⟩, A, r2) := by
        simp only [lEntityDefinition, lEntityFields, lPadded, lThenIgnore, lIgnoreThen, lMap, lThen, lIdent, hu, hr1, lJust_self, hv, hit, hw, hr2, hA]
        rfl
      rw [heq]
      refine ⟨fun d alt' rest' h => ?_, fun e h => by simp at h⟩
      simp only [Except.ok.injEq, Prod.mk.injEq] at h
      obtain ⟨_, rfl, rfl⟩ := h
      have := hcl r2 hr2
      exact ⟨this, this ▸ hgA⟩
    · have heq : lEntityDefinition (.ident n :: r) = .error ((⟨(skipPad rest).length, [.ctrl '}']⟩ : Located).maxOpt A) := by
        simp only [lEntityDefinition, lEntityFields, lPadded, lThenIgnore, lIgnoreThen, lMap, lThen, lIdent, hu, hr1, lJust_self, hv, hit, hw, lJust_ne hne2, hA]
        rfl
      rw [heq]
      refine ⟨fun d alt' rest' h => by simp at h, fun e h => ?_⟩
      simp only [Except.error.injEq] at h
      subst h
      have := hex hne2
      exact ⟨this.good, fun _ => this, fun h1 h2 => absurd (h1 ▸ hr1) (h2 r1)⟩
  · have heq : lEntityDefinition (.ident n :: r) = .error ⟨(skipPad r).length, .ctrl '{' :: sepExpected⟩ := by
      simp only [lEntityDefinition, lThenIgnore, lMap, lThen, lIdent, hu, lJust_ne hne]
      simp [Located.maxOpt, Located.max, mergeAlts]
    rw [heq]
    refine ⟨fun d alt' rest' h => by simp at h, fun e h => ?_⟩
    simp only [Except.error.injEq] at h
    subst h
    have hg : Good (crash (if skipPad r = r then .e1 else .e2) (skipPad r)) ⟨(skipPad r).length, .ctrl '{' :: sepExpected⟩ := by
      refine Good.here fun t ht => ?_
      rcases List.mem_cons.mp ht with rfl | ht
      · exact ⟨by rintro ⟨n, h⟩; simp at h, by split <;> rfl⟩
      · refine lists_sepExpected ?_ t ht
        split <;> rfl
    refine ⟨hg, ?_, fun h1 _ => by rw [h1]⟩
    rintro (⟨t, r', hr', rfl⟩ | hp)
    · exact absurd hr' (hne r')
    · rw [if_neg hp]
      refine Exact.here (by simp) (fun t r' hr' => ?_) fun t => ?_
      · by_contra h
        rcases (e2_some t).1 (Option.isSome_iff_ne_none.mpr h) with h | rfl
        · have := skipPad_head hr'; simp [h] at this
        · exact hne r' hr'
      · rw [List.mem_cons, mem_sepExpected, St.Lists, e2_some]
        constructor
        · rintro (rfl | h)
          · exact ⟨by rintro ⟨n, h⟩; simp at h, Or.inr rfl⟩
          · exact ⟨not_ident_sep h, Or.inl h⟩
        · rintro ⟨_, h | h⟩
          · exact Or.inr h
          · exact Or.inl h

theorem r12_some {s : St} (hs : s = .r1 ∨ s = .r2) (t : Token) (hi : ¬ IsIdent t) : (s.step t).isSome ↔ isSep t = true ∨ t = .edge := by
  rw [step_some]
  rcases hs with rfl | rfl <;> simp [St.sep, St.opens, St.closes, St.dot, St.type, St.edge, St.erd, St.key, St.name, hi]

theorem r3_some (t : Token) : (St.r3.step t).isSome ↔ isSep t = true ∨ IsIdent t := by
  rw [step_some]
  simp [St.sep, St.opens, St.closes, St.dot, St.type, St.edge, St.erd, St.key, St.name]

theorem r4_some (t : Token) : (St.r4.step t).isSome ↔ t = .ctrl '.' := by
  rw [step_some]
  simp [St.sep, St.opens, St.closes, St.dot, St.type, St.edge, St.erd, St.key, St.name]

theorem r5_some (t : Token) : (St.r5.step t).isSome ↔ isSep t = true ∨ t = .ctrl '}' ∨ IsIdent t := by
  rw [step_some]
  simp [St.sep, St.opens, St.closes, St.dot, St.type, St.edge, St.erd, St.key, St.name]

theorem e1_some (t : Token) : (St.e1.step t).isSome ↔ isSep t = true ∨ t = .ctrl '{' ∨ t = .ctrl '.' := by
  rw [step_some]
  simp [St.sep, St.opens, St.closes, St.dot, St.type, St.edge, St.erd, St.key, St.name]

/-- The optional field name after a dot. -/
theorem lOrNot_ident (ts : List Token) :
    (∃ n r, ts = .ident n :: r ∧ lOrNot lIdent ts = .ok (some n, none, r)) ∨
    ((∀ n r, ts ≠ .ident n :: r) ∧ lOrNot lIdent ts = .ok (none, some ⟨ts.length, []⟩, ts)) := by
  rcases ident_cases ts with ⟨n, r, rfl⟩ | h
  · exact Or.inl ⟨n, r, rfl, rfl⟩
  · exact Or.inr ⟨h, by simp [lOrNot, lIdent_err h]⟩

/-- The end of a relation, from its name on. -/
theorem end_spec (ts : List Token) :
    (∀ b alt rest, lEntity ts = .ok (b, alt, rest) →
      ∃ s', (s' = .s4 ∨ s' = .r5) ∧ crash .r3 ts = crash s' rest ∧ GoodAlt (crash s' rest) alt ∧ Pend s' rest alt) ∧
    (∀ e, lEntity ts = .error e → (e = ⟨ts.length, []⟩ ∧ ∀ n r, ts ≠ .ident n :: r) ∨ Exact (crash .r3 ts) e) := by
  rcases ident_cases ts with ⟨n, r, rfl⟩ | hn
  · rw [crash_cons (s' := .r4) rfl]
    rcases just_cases (.ctrl '.') r with ⟨r1, rfl⟩ | hne
    · rw [crash_cons (s' := .r5) rfl]
      rcases lOrNot_ident r1 with ⟨f, r2, rfl, ho⟩ | ⟨hni, ho⟩
      · have heq : lEntity (.ident n :: .ctrl '.' :: .ident f :: r2) = .ok (.field n f, none, r2) := by
          simp only [lEntity, lMap, lIgnoreThen, lThen, lIdent, lJust_self, ho]; rfl
        rw [heq]
        refine ⟨fun b alt rest h => ?_, fun e h => by simp at h⟩
        simp only [Except.ok.injEq, Prod.mk.injEq] at h
        obtain ⟨_, rfl, rfl⟩ := h
        exact ⟨.s4, Or.inl rfl, crash_cons rfl _, GoodAlt.none _, pend_s4 _ _⟩
      · have heq : lEntity (.ident n :: .ctrl '.' :: r1) = .ok (.entity n, some ⟨r1.length, []⟩, r1) := by
          simp only [lEntity, lMap, lIgnoreThen, lThen, lIdent, lJust_self, ho]; rfl
        rw [heq]
        refine ⟨fun b alt rest h => ?_, fun e h => by simp at h⟩
        simp only [Except.ok.injEq, Prod.mk.injEq] at h
        obtain ⟨_, rfl, rfl⟩ := h
        refine ⟨.r5, Or.inr rfl, rfl, GoodAlt.some (Good.here (by simp)), fun t r' hr h => ?_, fun t h => ?_⟩
        · rcases (r5_some t).1 h with h | h | ⟨n, rfl⟩
          · exact Or.inl h
          · exact Or.inr h
          · exact absurd hr (hni _ _)
        · rcases (r5_some t).1 h.2 with h | h | h'
          · exact Or.inl h
          · exact Or.inr (Or.inl h)
          · exact absurd h' h.1
    · have heq : lEntity (.ident n :: r) = .error ⟨r.length, [.ctrl '.']⟩ := by
        simp only [lEntity, lMap, lIgnoreThen, lThen, lIdent, lJust_ne hne]; rfl
      rw [heq]
      refine ⟨fun b alt rest h => by simp at h, fun e h => Or.inr ?_⟩
      simp only [Except.error.injEq] at h
      subst h
      refine Exact.here (by simp) (fun t r' hr => ?_) fun t => ?_
      · by_contra h
        have := (r4_some t).1 (Option.isSome_iff_ne_none.mpr h)
        exact hne r' (this ▸ hr)
      · rw [List.mem_singleton, St.Lists, r4_some]
        exact ⟨fun h => ⟨by rintro ⟨n, h'⟩; simp [h] at h', h⟩, fun h => h.2⟩
  · have heq : lEntity ts = .error ⟨ts.length, []⟩ := by
      simp only [lEntity, lMap, lThen, lIdent_err hn]
    rw [heq]
    refine ⟨fun b alt rest h => by simp at h, fun e h => Or.inl ?_⟩
    simp only [Except.error.injEq] at h
    exact ⟨h.symm, hn⟩

/-- A relation, after its first dot. -/
theorem relation_spec (n : Str) (r : List Token) :
    (∀ x alt rest, lRelation (.ident n :: .ctrl '.' :: r) = .ok (x, alt, rest) →
      ∃ s', (s' = .s4 ∨ s' = .r5) ∧ crash .r1 r = crash s' rest ∧ GoodAlt (crash s' rest) alt ∧ Pend s' rest alt) ∧
    (∀ e, lRelation (.ident n :: .ctrl '.' :: r) = .error e → Exact (crash .r1 r) e) := by
  -- the start of the relation
  obtain ⟨a, alt0, r2, s, hs, hent, hc0, hg0, hhead⟩ : ∃ a alt0 r2 s, (s = .r1 ∨ s = .r2) ∧
      lEntity (.ident n :: .ctrl '.' :: r) = .ok (a, alt0, r2) ∧ crash .r1 r = crash s r2 ∧ GoodAlt (crash s r2) alt0 ∧
      (s = .r1 → ∀ n r, r2 ≠ .ident n :: r) := by
    rcases lOrNot_ident r with ⟨f, r2, rfl, ho⟩ | ⟨hni, ho⟩
    · refine ⟨.field n f, none, r2, .r2, Or.inr rfl, ?_, crash_cons rfl _, GoodAlt.none _, by simp⟩
      simp only [lEntity, lMap, lIgnoreThen, lThen, lIdent, lJust_self, ho]; rfl
    · refine ⟨.entity n, some ⟨r.length, []⟩, r, .r1, Or.inl rfl, ?_, rfl, GoodAlt.some (Good.here (by simp)), fun _ => hni⟩
      simp only [lEntity, lMap, lIgnoreThen, lThen, lIdent, lJust_self, ho]; rfl
  obtain ⟨us, hu⟩ := lPad_eq r2
  obtain ⟨sp, hs1, hc1, hhead1⟩ : ∃ sp, (sp = .r1 ∨ sp = .r2) ∧ crash s r2 = crash sp (skipPad r2) ∧ (sp = .r1 → ∀ n r, skipPad r2 ≠ .ident n :: r) := by
    refine ⟨if skipPad r2 = r2 then s else .r2, ?_, ?_, ?_⟩
    · split
      · exact hs
      · exact Or.inr rfl
    · exact crash_skipPad (by rcases hs with rfl | rfl <;> rfl) rfl r2
    · split
      · rename_i h; rw [h]; exact hhead
      · simp
  have hsep1 : sp.sep.isSome := by rcases hs1 with rfl | rfl <;> rfl
  rw [hc0, hc1]
  rw [hc1] at hg0
  have hg1 : Good (crash sp (skipPad r2)) ⟨(skipPad r2).length, sepExpected⟩ := Good.here (lists_sepExpected hsep1)
  rcases just_cases .edge (skipPad r2) with ⟨r3, hr3⟩ | hne
  · have hc2 : crash sp (skipPad r2) = crash .r3 r3 := by
      rw [hr3]; rcases hs1 with rfl | rfl <;> exact crash_cons rfl _
    obtain ⟨vs, hv⟩ := lPad_eq r3
    rw [hc2] at hg0 hg1 ⊢
    have hc3 := crash_skipPad_same (s := .r3) rfl r3
    rw [hc3] at hg0 hg1 ⊢
    have hg2 : Good (crash .r3 (skipPad r3)) ⟨(skipPad r3).length, sepExpected⟩ := Good.here (lists_sepExpected rfl)
    obtain ⟨hok, herr⟩ := end_spec (skipPad r3)
    obtain ⟨A, hA⟩ : ∃ A, A = mergeAlts (some ⟨(skipPad r2).length, sepExpected⟩) (some ⟨(skipPad r3).length, sepExpected⟩) := ⟨_, rfl⟩
    have hgA : GoodAlt (crash .r3 (skipPad r3)) A := hA ▸ GoodAlt.merge (GoodAlt.some hg1) (GoodAlt.some hg2)
    rcases hend : lEntity (skipPad r3) with e | ⟨b, alt', rest⟩
    · have heq : lRelation (.ident n :: .ctrl '.' :: r) = .error ((e.maxOpt A).maxOpt alt0) := by
        simp only [lRelation, lPadded, lThenIgnore, lIgnoreThen, lMap, lThen, hent, hu, hr3, lJust_self, hv, hend, hA]
        rfl
      rw [heq]
      refine ⟨fun b alt rest h => by simp at h, fun e' h => ?_⟩
      simp only [Except.error.injEq] at h
      subst h
      have hx : Exact (crash .r3 (skipPad r3)) (e.maxOpt A) := by
        rcases herr e hend with ⟨rfl, hni⟩ | hx
        · have hge : Good (crash .r3 (skipPad r3)) ⟨(skipPad r3).length, []⟩ := Good.here (by simp)
          have hdead : crash .r3 (skipPad r3) = (.r3, (skipPad r3).length) := by
            refine crash_dead fun t r' hr => ?_
            by_contra h
            rcases (r3_some t).1 (Option.isSome_iff_ne_none.mpr h) with h | ⟨n, rfl⟩
            · have := skipPad_head hr; simp [h] at this
            · exact hni n r' hr
          refine Exact.maxOpt hge hgA (Or.inr ?_)
          rw [hA]
          refine ExactAlt.merge (GoodAlt.some hg1) (GoodAlt.some hg2) (Or.inr ⟨_, rfl, ?_⟩)
          rw [hdead]
          refine ⟨by simp, rfl, fun t => ?_⟩
          rw [mem_sepExpected, St.Lists, r3_some]
          exact ⟨fun h => ⟨not_ident_sep h, Or.inl h⟩, fun h => h.2.resolve_right h.1⟩
        · exact Exact.maxOpt hx.good hgA (Or.inl hx)
      exact Exact.maxOpt hx.good hg0 (Or.inl hx)
    · obtain ⟨s', hs', hc', hg', hp'⟩ := hok _ _ _ hend
      have heq : lRelation (.ident n :: .ctrl '.' :: r) = .ok (⟨a, b⟩, mergeAlts alt0 (mergeAlts A alt'), rest) := by
        simp only [lRelation, lPadded, lThenIgnore, lIgnoreThen, lMap, lThen, hent, hu, hr3, lJust_self, hv, hend, hA]
        rfl
      rw [heq]
      refine ⟨fun x alt rest' h => ?_, fun e h => by simp at h⟩
      simp only [Except.ok.injEq, Prod.mk.injEq] at h
      obtain ⟨_, rfl, rfl⟩ := h
      rw [hc'] at hg0 hgA
      exact ⟨s', hs', hc', hg0.merge (hgA.merge hg'), hp'.mono fun n t h => Covered.merge (Or.inr (Covered.merge (Or.inr h)))⟩
  · have heq : lRelation (.ident n :: .ctrl '.' :: r) = .error ((⟨(skipPad r2).length, .edge :: sepExpected⟩ : Located).maxOpt alt0) := by
      simp only [lRelation, lPadded, lThenIgnore, lIgnoreThen, lMap, lThen, hent, hu, lJust_ne hne]
      simp [Located.maxOpt, Located.max]
    rw [heq]
    refine ⟨fun b alt rest h => by simp at h, fun e' h => ?_⟩
    simp only [Except.error.injEq] at h
    subst h
    have hx : Exact (crash sp (skipPad r2)) ⟨(skipPad r2).length, .edge :: sepExpected⟩ := by
      refine Exact.here (by rcases hs1 with rfl | rfl <;> simp) (fun t r' hr => ?_) fun t => ?_
      · by_contra h
        have h := Option.isSome_iff_ne_none.mpr h
        by_cases hi : IsIdent t
        · obtain ⟨m, rfl⟩ := hi
          rcases hs1 with rfl | rfl
          · exact hhead1 rfl m r' hr
          · simp [St.step, St.name] at h
        · rcases (r12_some hs1 t hi).1 h with h | rfl
          · have := skipPad_head hr; simp [h] at this
          · exact hne r' hr
      · rw [List.mem_cons, mem_sepExpected, St.Lists]
        constructor
        · rintro (rfl | h)
          · have : ¬ IsIdent .edge := by rintro ⟨n, h⟩; simp at h
            exact ⟨this, (r12_some hs1 _ this).2 (Or.inr rfl)⟩
          · exact ⟨not_ident_sep h, (r12_some hs1 _ (not_ident_sep h)).2 (Or.inl h)⟩
        · rintro ⟨hi, h⟩
          exact ((r12_some hs1 t hi).1 h).symm
    exact Exact.maxOpt hx.good hg0 (Or.inl hx)

theorem entry_spec : ItemSpec lModuleEntry .s3 .acc (fun s => s = .s4 ∨ s = .r5) where
  ok := by
    intro ts a alt rest h
    have hlen : rest.length < ts.length := by
      have : pModuleEntry ts = some (a, rest) := by rw [← erase_moduleEntry, erase, h]
      obtain ⟨w, rfl, hw⟩ := pModuleEntry_sound _ _ _ this
      obtain ⟨t, w', rfl, _⟩ := EntryG.head hw
      simp; omega
    rcases ident_cases ts with ⟨n, r, rfl⟩ | hn
    · simp only [lModuleEntry, lChoice, lMap] at h
      obtain ⟨hdok, hderr⟩ := definition_spec n r
      rcases hd : lEntityDefinition (.ident n :: r) with e | ⟨d, alt1, rest1⟩
      · simp only [hd] at h
        rcases just_cases (.ctrl '.') r with ⟨r1, rfl⟩ | hne
        · obtain ⟨hrok, _⟩ := relation_spec n r1
          rcases hr : lRelation (.ident n :: .ctrl '.' :: r1) with e' | ⟨x, alt2, rest2⟩
          · simp [hr] at h
          · simp only [hr, Except.ok.injEq, Prod.mk.injEq] at h
            obtain ⟨_, rfl, rfl⟩ := h
            obtain ⟨s', hs', hc', hg', hp'⟩ := hrok _ _ _ hr
            exact ⟨s', hs', by rw [crash_cons (s' := .e1) rfl, crash_cons (s' := .r1) rfl, hc'], hlen, hg', hp'⟩
        · have : lRelation (.ident n :: r) = .error ⟨r.length, [.ctrl '.']⟩ := by
            simp [lRelation, lEntity, lMap, lIgnoreThen, lThen, lIdent, lJust_ne hne, Located.maxOpt]
          simp [this] at h
      · simp only [hd, Except.ok.injEq, Prod.mk.injEq] at h
        obtain ⟨_, rfl, rfl⟩ := h
        obtain ⟨hc, hg⟩ := hdok _ _ _ hd
        exact ⟨.s4, Or.inl rfl, hc, hlen, hg, pend_s4 _ _⟩
    · have h1 : lEntityDefinition ts = .error ⟨ts.length, []⟩ := by
        simp [lEntityDefinition, lThenIgnore, lMap, lThen, lIdent_err hn]
      have h2 : lRelation ts = .error ⟨ts.length, []⟩ := by
        simp [lRelation, lEntity, lMap, lThen, lIdent_err hn]
      simp [lModuleEntry, lChoice, lMap, h1, h2] at h
  err := by
    intro ts e h
    rcases ident_cases ts with ⟨n, r, rfl⟩ | hn
    · suffices hx : Exact (crash .s3 (.ident n :: r)) e from ⟨hx.good, fun _ => hx⟩
      simp only [lModuleEntry, lChoice, lMap] at h
      obtain ⟨hdok, hderr⟩ := definition_spec n r
      rcases hd : lEntityDefinition (.ident n :: r) with e1 | ⟨d, alt1, rest1⟩
      · simp only [hd] at h
        obtain ⟨hg1, hx1, hform⟩ := hderr e1 hd
        have hce : crash .s3 (.ident n :: r) = crash .e1 r := crash_cons rfl r
        rcases just_cases (.ctrl '.') r with ⟨r1, rfl⟩ | hne
        · obtain ⟨_, hrerr⟩ := relation_spec n r1
          rcases hr : lRelation (.ident n :: .ctrl '.' :: r1) with e' | ⟨x, alt2, rest2⟩
          · simp only [hr, Except.error.injEq] at h
            subst h
            have := hrerr e' hr
            rw [← crash_cons (s := .e1) (t := .ctrl '.') rfl r1, ← hce] at this
            exact this.max_left hg1
          · simp [hr] at h
        · have hr : lRelation (.ident n :: r) = .error ⟨r.length, [.ctrl '.']⟩ := by
            simp [lRelation, lEntity, lMap, lIgnoreThen, lThen, lIdent, lJust_ne hne, Located.maxOpt]
          simp only [hr, Except.error.injEq] at h
          subst h
          have hg2 : Good (crash .s3 (.ident n :: r)) ⟨r.length, [.ctrl '.']⟩ := by
            rw [hce]
            refine Good.here fun t ht => ?_
            rw [List.mem_singleton] at ht
            subst ht
            exact ⟨by rintro ⟨n, h⟩; simp at h, rfl⟩
          by_cases hcase : (∃ t r', skipPad r = t :: r' ∧ t = .ctrl '{') ∨ skipPad r ≠ r
          · exact Exact.max_right hg2 (hx1 hcase)
          · push Not at hcase
            obtain ⟨hb, hp⟩ := hcase
            have hnb : ∀ r', r ≠ .ctrl '{' :: r' := fun r' e => hb _ r' (hp.trans e) rfl
            rw [hform hp hnb]
            have : (⟨r.length, [.ctrl '.']⟩ : Located).max ⟨r.length, .ctrl '{' :: sepExpected⟩ = ⟨r.length, .ctrl '.' :: .ctrl '{' :: sepExpected⟩ := by
              simp [Located.max]
            rw [this, hce]
            refine Exact.here (by simp) (fun t r' hr' => ?_) fun t => ?_
            · by_contra h
              rcases (e1_some t).1 (Option.isSome_iff_ne_none.mpr h) with h | rfl | rfl
              · have := skipPad_head (hp.trans hr'); simp [h] at this
              · exact hnb r' hr'
              · exact hne r' hr'
            · rw [List.mem_cons, List.mem_cons, mem_sepExpected, St.Lists, e1_some]
              constructor
              · rintro (rfl | rfl | h)
                · exact ⟨by rintro ⟨n, h⟩; simp at h, Or.inr (Or.inr rfl)⟩
                · exact ⟨by rintro ⟨n, h⟩; simp at h, Or.inr (Or.inl rfl)⟩
                · exact ⟨not_ident_sep h, Or.inl h⟩
              · rintro ⟨_, h | h | h⟩
                · exact Or.inr (Or.inr h)
                · exact Or.inr (Or.inl h)
                · exact Or.inl h
      · simp [hd] at h
    · have h1 : lEntityDefinition ts = .error ⟨ts.length, []⟩ := by
        simp [lEntityDefinition, lThenIgnore, lMap, lThen, lIdent_err hn]
      have h2 : lRelation ts = .error ⟨ts.length, []⟩ := by
        simp [lRelation, lEntity, lMap, lThen, lIdent_err hn]
      simp only [lModuleEntry, lChoice, lMap, h1, h2, Except.error.injEq] at h
      subst h
      have : (⟨ts.length, []⟩ : Located).max ⟨ts.length, []⟩ = ⟨ts.length, []⟩ := by simp [Located.max]
      rw [this]
      exact ⟨Good.here (by simp), fun ⟨n, r, hr⟩ => absurd hr (hn n r)⟩
  after := by
    rintro s (rfl | rfl) <;> exact ⟨rfl, rfl, by simp⟩
  sep := rfl
  closes := rfl
  notAcc := by simp
  reads := s3_some

theorem s0_some (t : Token) : (St.s0.step t).isSome ↔ isSep t = true ∨ t = .erd := by
  rw [step_some]
  simp [St.sep, St.opens, St.closes, St.dot, St.type, St.edge, St.erd, St.key, St.name]

theorem s12_some {s : St} (hs : s = .s1 ∨ s = .s2) (t : Token) (hi : ¬ IsIdent t) : (s.step t).isSome ↔ isSep t = true ∨ t = .ctrl '{' := by
  rw [step_some]
  rcases hs with rfl | rfl <;> simp [St.sep, St.opens, St.closes, St.dot, St.type, St.edge, St.erd, St.key, St.name, hi]

/-- The optional name of the module. -/
theorem name_spec (ts : List Token) (hts : skipPad ts = ts) : ∃ nm alt rest s, (s = .s1 ∨ s = .s2) ∧
    lOrNot (lPadded lIdent) ts = .ok (nm, alt, rest) ∧ crash .s1 ts = crash s rest ∧ GoodAlt (crash s rest) alt ∧
    (∀ t, isSep t = true → Covered alt rest.length t) ∧ skipPad rest = rest ∧ (s = .s1 → ∀ n r, rest ≠ .ident n :: r) := by
  obtain ⟨us, hu⟩ := lPad_eq ts
  rw [hts] at hu
  have hg : Good (crash .s1 ts) ⟨ts.length, sepExpected⟩ := Good.here (lists_sepExpected rfl)
  rcases ident_cases ts with ⟨n, r, rfl⟩ | hn
  · obtain ⟨vs, hv⟩ := lPad_eq r
    have hc : crash .s1 (.ident n :: r) = crash .s2 (skipPad r) := by
      rw [crash_cons (s' := .s2) rfl, ← crash_skipPad_same (s := .s2) rfl]
    have heq : lOrNot (lPadded lIdent) (.ident n :: r) =
        .ok (some n, mergeAlts (some ⟨r.length + 1, sepExpected⟩) (some ⟨(skipPad r).length, sepExpected⟩), skipPad r) := by
      simp only [lOrNot, lPadded, lThenIgnore, lIgnoreThen, lMap, lThen, hu, lIdent, hv]; rfl
    refine ⟨_, _, _, .s2, Or.inr rfl, heq, hc, ?_, fun t ht => ?_, skipPad_idem r, by simp⟩
    · rw [hc] at hg
      exact GoodAlt.merge (GoodAlt.some hg) (GoodAlt.some (Good.here (lists_sepExpected rfl)))
    · exact Covered.merge (Or.inr ⟨_, rfl, Or.inr ⟨rfl, (mem_sepExpected t).2 ht⟩⟩)
  · have heq : lOrNot (lPadded lIdent) ts = .ok (none, some ⟨ts.length, sepExpected⟩, ts) := by
      simp only [lOrNot, lPadded, lThenIgnore, lIgnoreThen, lMap, lThen, hu, lIdent_err hn]
      simp [Located.maxOpt, Located.max]
    exact ⟨_, _, _, .s1, Or.inl rfl, heq, rfl, GoodAlt.some hg, fun t ht => ⟨_, rfl, Or.inr ⟨rfl, (mem_sepExpected t).2 ht⟩⟩, hts, fun _ => hn⟩

/-- The error of the parser is where the automaton stops, and lists what the automaton could read there. -/
theorem module_error {ts : List Token} {e : Located} (h : lModule ts = .error e) : Exact (crash .s0 ts) e := by
  obtain ⟨us, hu⟩ := lPad_eq ts
  have hc0 := crash_skipPad_same (s := .s0) rfl ts
  rw [hc0]
  generalize hX0 : skipPad ts = X0 at hu hc0 ⊢
  have hpX0 : skipPad X0 = X0 := by rw [← hX0, skipPad_idem]
  obtain ⟨us', hu'⟩ := lPad_eq X0
  rw [hpX0] at hu'
  have hg0 : Good (crash .s0 X0) ⟨X0.length, sepExpected⟩ := Good.here (lists_sepExpected rfl)
  rcases just_cases .erd X0 with ⟨r1, rfl⟩ | hne
  · have hc1 : crash .s0 (.erd :: r1) = crash .s1 (skipPad r1) := by
      rw [crash_cons (s' := .s1) rfl, ← crash_skipPad_same (s := .s1) rfl]
    obtain ⟨vs, hv⟩ := lPad_eq r1
    rw [hc1] at hg0 ⊢
    have hg1 : Good (crash .s1 (skipPad r1)) ⟨(skipPad r1).length, sepExpected⟩ := Good.here (lists_sepExpected rfl)
    obtain ⟨nm, altN, X2, s, hs, hname, hc2, hgN, hcov, hpX2, hhead⟩ := name_spec (skipPad r1) (skipPad_idem r1)
    rw [hc2] at hg0 hg1 ⊢
    obtain ⟨B, hB⟩ : ∃ B, B = mergeAlts (mergeAlts (some ⟨r1.length + 1, sepExpected⟩) (some ⟨(skipPad r1).length, sepExpected⟩)) altN := ⟨_, rfl⟩
    have hgB : GoodAlt (crash s X2) B := hB ▸ GoodAlt.merge (GoodAlt.merge (GoodAlt.some hg0) (GoodAlt.some hg1)) hgN
    rcases just_cases (.ctrl '{') X2 with ⟨r3, rfl⟩ | hne
    · have hc3 : crash s (.ctrl '{' :: r3) = crash .s3 r3 := by
        rcases hs with rfl | rfl <;> exact crash_cons rfl _
      rw [hc3] at hg0 hgB ⊢
      obtain ⟨ws, hw⟩ := lPad_eq r3
      obtain ⟨o, alt, rest, hit, hready⟩ := items_spec entry_spec (skipPad r3) (skipPad_idem r3)
      rw [← crash_skipPad_same (s := .s3) rfl r3] at hready
      obtain ⟨ys, hy⟩ := lPad_eq rest
      have hg3 : Good (crash .s3 r3) ⟨(skipPad r3).length, sepExpected⟩ := by
        rw [crash_skipPad_same (s := .s3) rfl r3]
        exact Good.here (lists_sepExpected rfl)
      have hg4 := hready.good_pad entry_spec
      obtain ⟨A, hA⟩ : ∃ A, A = mergeAlts B (mergeAlts (mergeAlts (some ⟨(skipPad r3).length, sepExpected⟩) alt)
        (some ⟨(skipPad rest).length, sepExpected⟩)) := ⟨_, rfl⟩
      have hg34 := GoodAlt.merge (GoodAlt.merge (GoodAlt.some hg3) hready.good) (GoodAlt.some hg4)
      have hgA : GoodAlt (crash .s3 r3) A := hA ▸ GoodAlt.merge hgB hg34
      obtain ⟨hcl, hex⟩ := hready.close entry_spec hgA
        (fun h => by
          rw [hA]
          exact ExactAlt.merge hgB hg34
            (Or.inr (ExactAlt.merge (GoodAlt.merge (GoodAlt.some hg3) hready.good) (GoodAlt.some hg4)
              (Or.inl (ExactAlt.merge (GoodAlt.some hg3) hready.good (Or.inr h))))))
        (fun n t h => by rw [hA]; exact Covered.merge (Or.inr (Covered.merge (Or.inl (Covered.merge (Or.inr h))))))
        (fun t h => by rw [hA]; exact Covered.merge (Or.inr (Covered.merge (Or.inr ⟨_, rfl, Or.inr ⟨rfl, (mem_sepExpected t).2 h⟩⟩))))
      rcases just_cases (.ctrl '}') (skipPad rest) with ⟨r4, hr4⟩ | hne4
      · obtain ⟨zs, hz⟩ := lPad_eq r4
        have : ∃ r, lModule ts = .ok r := by
          simp only [lModule, lModuleEntries, lPadded, lThenIgnore, lIgnoreThen, lMap, lThen, hu, hu', lJust_self, hv]
          simp only [lPadded, lThenIgnore, lIgnoreThen] at hname
          simp only [hname, lJust_self, hw, hit, hy, hr4, hz]
          exact ⟨_, rfl⟩
        obtain ⟨r, hr⟩ := this
        rw [hr] at h; simp at h
      · have heq : lModule ts = .error (((⟨(skipPad rest).length, [.ctrl '}']⟩ : Located).maxOpt A).maxOpt (some ⟨r1.length + 1, sepExpected⟩)) := by
          simp only [lModule, lModuleEntries, lPadded, lThenIgnore, lIgnoreThen, lMap, lThen, hu, hu', lJust_self, hv]
          simp only [lPadded, lThenIgnore, lIgnoreThen] at hname
          simp only [hname, lJust_self, hw, hit, hy, lJust_ne hne4, hA, hB]
          simp only [List.length_cons, mergeAlts, Located.maxOpt]
        rw [heq, Except.error.injEq] at h
        subst h
        have hx := hex hne4
        exact Exact.maxOpt hx.good (GoodAlt.some hg0) (Or.inl hx)
    · have heq : lModule ts = .error (((⟨X2.length, [.ctrl '{']⟩ : Located).maxOpt B).maxOpt (some ⟨r1.length + 1, sepExpected⟩)) := by
        simp only [lModule, lModuleEntries, lPadded, lThenIgnore, lIgnoreThen, lMap, lThen, hu, hu', lJust_self, hv]
        simp only [lPadded, lThenIgnore, lIgnoreThen] at hname
        simp only [hname, lJust_ne hne, hB]
        simp only [List.length_cons, mergeAlts, Located.maxOpt]
      rw [heq, Except.error.injEq] at h
      subst h
      have hb : ¬ IsIdent (.ctrl '{') := by rintro ⟨n, h⟩; simp at h
      have hge : Good (crash s X2) ⟨X2.length, [.ctrl '{']⟩ := by
        refine Good.here fun t ht => ?_
        rw [List.mem_singleton] at ht
        subst ht
        exact ⟨hb, (s12_some hs _ hb).2 (Or.inr rfl)⟩
      have hdead : crash s X2 = (s, X2.length) := by
        refine crash_dead fun t r' hr => ?_
        by_contra h
        have h := Option.isSome_iff_ne_none.mpr h
        by_cases hi : IsIdent t
        · obtain ⟨m, rfl⟩ := hi
          rcases hs with rfl | rfl
          · exact hhead rfl m r' hr
          · simp [St.step, St.name] at h
        · rcases (s12_some hs t hi).1 h with h | rfl
          · have := skipPad_head (hpX2.trans hr); simp [h] at this
          · exact hne r' hr
      have hx : Exact (crash s X2) ((⟨X2.length, [.ctrl '{']⟩ : Located).maxOpt B) := by
        have hsome : some ((⟨X2.length, [.ctrl '{']⟩ : Located).maxOpt B) = mergeAlts (some ⟨X2.length, [.ctrl '{']⟩) B := rfl
        refine Exact.of_covered (by rw [hdead]; rcases hs with rfl | rfl <;> simp) (hge.maxOpt hgB) ?_ fun t ht => ?_
        · rw [hdead]
          rcases B with _ | b
          · exact le_refl _
          · simp only [Located.maxOpt, Located.max]
            split
            · exact le_refl _
            · split
              · exact (by omega : b.left ≤ X2.length)
              · exact le_refl _
        · rw [hdead] at ht ⊢
          rw [hsome]
          refine Covered.merge ?_
          rcases (s12_some hs t ht.1).1 ht.2 with h | rfl
          · exact Or.inr (hB ▸ Covered.merge (Or.inr (hcov t h)))
          · exact Or.inl ⟨_, rfl, Or.inr ⟨rfl, by simp⟩⟩
      exact Exact.maxOpt hx.good (GoodAlt.some hg0) (Or.inl hx)
  · have heq : lModule ts = .error ⟨X0.length, .erd :: (sepExpected ++ sepExpected)⟩ := by
      simp only [lModule, lPadded, lThenIgnore, lIgnoreThen, lMap, lThen, hu, hu', lJust_ne hne]
      simp [Located.maxOpt, Located.max]
    rw [heq, Except.error.injEq] at h
    subst h
    refine Exact.here (by simp) (fun t r' hr => ?_) fun t => ?_
    · by_contra h
      rcases (s0_some t).1 (Option.isSome_iff_ne_none.mpr h) with h | rfl
      · have := skipPad_head (hpX0.trans hr); simp [h] at this
      · exact hne r' hr
    · rw [List.mem_cons, List.mem_append, or_self, mem_sepExpected, St.Lists, s0_some]
      constructor
      · rintro (rfl | h)
        · exact ⟨by rintro ⟨n, h⟩; simp at h, Or.inr rfl⟩
        · exact ⟨not_ident_sep h, Or.inl h⟩
      · rintro ⟨_, h | h⟩
        · exact Or.inr h
        · exact Or.inl h

end Seiren
